import Verif.BufferLemmas

/-!
# Properties C40 and C68: buffer pools
-/

namespace Diminuto.Buffer

/-! ## C40 -/

/-- C40: every history in which the application frees and reallocates only buffers that it holds, and writes only within
their capacity, and `malloc` returns only unused blocks, is defined, returns what the specification
says, and in the end the blocks allocated from the heap are exactly those that are held or in the pool. -/
theorem buffer_refines (sizes : List Nat) (hV : Valid sizes) (os : List Op) (v : View) (rs : List Nat)
    (h : View.Run sizes View.start os v rs) :
    ∃ F s, (∀ fuel, F ≤ fuel → run fuel sizes start os = some (s, rs)) ∧
      (∀ a k, v.cap a = some k → s.block a = some (k + 8)) ∧
      (∀ c a k, a ∈ v.stack c → sizes[c]? = some k → s.block a = some (k + 8)) ∧
      ∀ a, (s.block a).isSome → (v.cap a).isSome ∨ ∃ c, a ∈ v.stack c := by
  obtain ⟨F, s, e, hi⟩ := run_inv hV h _ (inv_start sizes)
  refine ⟨F, s, e, fun a k hk => (hi.held a k hk).2.1, fun c a k ha hk => (hi.pooled c a k ha hk).2, fun a ha => ?_⟩
  apply Classical.byContradiction
  intro hcon
  rw [not_or, not_exists] at hcon
  rw [hi.rest a (by simpa using hcon.1) hcon.2] at ha
  simp at ha

/-- C40: a buffer that is handed out was not held, is large enough, and afterwards is in no list. -/
theorem buffer_get_fresh (sizes : List Nat) (hV : Valid sizes) (os : List Op) (v : View) (rs : List Nat)
    (h : View.Run sizes View.start os v rs) (size : Nat) (nm : Bool) (m : Option Nat) (v' : View) (r : Nat)
    (hg : View.Step sizes v (.malloc size nm m) v' r) (hr : r ≠ 0) :
    v.cap r = none ∧ (∃ k, v'.cap r = some k ∧ size ≤ k) ∧ (∀ c, r ∉ v'.stack c) ∧
      ∀ b, b ≠ r → v'.cap b = v.cap b := by
  obtain ⟨F, s, e, hi⟩ := run_inv hV h _ (inv_start sizes)
  cases hg with
  | malloc hg =>
    obtain ⟨s', -, i, -, g, -⟩ := get_step hV hi hg
    obtain ⟨g1, g2, g3⟩ := g hr
    exact ⟨g2, ⟨_, g1, capacity_ge _ _⟩, (i.held r _ g1).2.2.2.2, g3⟩

/-- C40: the model does not hide what is undefined: after any such history, writing into a buffer that is held is defined exactly within its capacity, writing to the null pointer is not, and
a heap that returns the null pointer as a block, or a block that is in use, is not considered. -/
theorem buffer_strict (sizes : List Nat) (hV : Valid sizes) (os : List Op) (v : View) (rs : List Nat)
    (h : View.Run sizes View.start os v rs) :
    ∃ F s, (∀ fuel, F ≤ fuel → run fuel sizes start os = some (s, rs)) ∧
      (∀ a k, v.cap a = some k → ∀ i b, (write s a i b).isSome ↔ i < k) ∧
      (∀ n, heapMalloc s n (some 0) = none) ∧ ∀ a n, (v.cap a).isSome → heapMalloc s n (some a) = none := by
  obtain ⟨F, s, e, hi⟩ := run_inv hV h _ (inv_start sizes)
  refine ⟨F, s, e, fun a k hk i b => ?_, fun n => ?_, fun a n ha => ?_⟩
  · have hb := (hi.held a k hk).2.1
    simp only [write, inPayload, hb]
    by_cases hlt : i < k
    · rw [if_pos (by simp; omega)]
      simp [hlt]
    · rw [if_neg (by simp; omega)]
      simp [hlt]
  · simp [heapMalloc]
  · obtain ⟨k, hk⟩ := Option.isSome_iff_exists.1 ha
    have hb := (hi.held a k hk).2.1
    simp [heapMalloc, hb]

/-- C40: no buffer is in two places. -/
theorem buffer_no_duplicates (sizes : List Nat) (hV : Valid sizes) (os : List Op) (v : View) (rs : List Nat)
    (h : View.Run sizes View.start os v rs) :
    (∀ c, (v.stack c).Nodup) ∧ (∀ c d a, a ∈ v.stack c → a ∈ v.stack d → c = d) ∧
      ∀ a c, v.cap a ≠ none → a ∉ v.stack c := by
  obtain ⟨F, s, e, hi⟩ := run_inv hV h _ (inv_start sizes)
  refine ⟨hi.nodup, hi.apart, fun a c ha => ?_⟩
  obtain ⟨k, hk⟩ := Option.ne_none_iff_exists'.1 ha
  exact (hi.held a k hk).2.2.2.2 c

/-- C40: the specification says something about every allocation, freeing and reallocation that keeps to the rules. -/
theorem buffer_spec_total (sizes : List Nat) (hV : Valid sizes) (os : List Op) (v : View) (rs : List Nat)
    (h : View.Run sizes View.start os v rs) (size : Nat) (nm : Bool) (m : Option Nat) (hb : size + 8 < 2 ^ 64)
    (hm : ∀ a, m = some a → v.Unused a) :
    (∃ v' r, View.Step sizes v (.malloc size nm m) v' r) ∧
      (∀ a, v.cap a ≠ none → (∃ v', View.Step sizes v (.free a) v' 0) ∧
        ∃ v' r, View.Step sizes v (.realloc a size nm m) v' r) ∧ ∃ v' r, View.Step sizes v (.realloc 0 size nm m) v' r := by
  obtain ⟨v1, r, hg⟩ := get_total hV v size nm m hb hm
  refine ⟨⟨v1, r, .malloc hg⟩, fun a ha => ?_, ⟨v1, r, .reallocNull hg⟩⟩
  obtain ⟨k, hk⟩ := Option.ne_none_iff_exists'.1 ha
  obtain ⟨v2, hp⟩ := put_total (sizes := sizes) v a k hk
  refine ⟨⟨v2, .free hp⟩, ?_⟩
  by_cases h0 : size = 0
  · subst h0
    exact ⟨v2, 0, .reallocFree hp⟩
  · by_cases hke : k = capacity sizes size
    · exact ⟨v, a, .reallocSame (by omega) hb (by rw [← hke]; exact hk)⟩
    · obtain ⟨F, s, e, hi⟩ := run_inv hV h _ (inv_start sizes)
      obtain ⟨s', -, -, -, g1, g2⟩ := get_step hV hi hg
      have hk1 : v1.cap a = some k := by
        by_cases hr : r = 0
        · rw [g2 hr]
          exact hk
        · rw [(g1 hr).2.2 a (by rintro rfl; have := (g1 hr).2.1; rw [hk] at this; simp at this)]
          exact hk
      obtain ⟨v3, hp3⟩ := put_total (sizes := sizes) v1 a k hk1
      exact ⟨v3, r, .reallocMove (by omega) hb hk hke hg hp3⟩

/-! ## C68 -/

/-- C68: no call changes the bytes of a buffer that stays held; reallocation keeps the bytes up to the lesser of
old capacity and new size; cleared allocation clears. -/
theorem buffer_contents (sizes : List Nat) (hV : Valid sizes) (os : List Op) (v : View) (rs : List Nat)
    (h : View.Run sizes View.start os v rs) (o : Op) (v' : View) (r : Nat) (ho : View.Step sizes v o v' r) :
    ∃ F s s', ∀ fuel, F ≤ fuel → run fuel sizes start os = some (s, rs) ∧ step fuel sizes s o = some (s', r) ∧
      (∀ b k, v.cap b = some k → v'.cap b = some k → (∀ i x, o ≠ .write b i x) →
        ∀ i, i < k → s'.content b i = s.content b i) ∧
      (∀ a size nm m k, o = .realloc a size nm m → v.cap a = some k → r ≠ 0 →
        ∀ i, i < k → i < size → s'.content r i = s.content a i) ∧
      (∀ n size nm m, o = .calloc n size nm m → r ≠ 0 → ∀ i, i < n * size → s'.content r i = 0) ∧
      ∀ a i x, o = .write a i x → s'.content a i = x ∧ ∀ j, j ≠ i → s'.content a j = s.content a j := by
  obtain ⟨F, s, e, hi⟩ := run_inv hV h _ (inv_start sizes)
  obtain ⟨F2, s', e2, i2, c1, c2⟩ := step_inv hV hi ho
  refine ⟨max F F2, s, s', fun fuel hf => ⟨e fuel (by omega), e2 fuel (by omega), c1, ?_, ?_, ?_⟩⟩
  · rintro a size nm m k rfl hk hr i h1 h2
    exact c2 k hk hr i h1 h2
  · rintro n size nm m rfl hr i hi
    exact c2 hr i hi
  · rintro a i x rfl
    exact c2

/-- The pool of the library is valid. -/
theorem buffer_pool_valid : Valid POOL := ⟨by decide, by decide, by decide⟩

/-- Two requests of one size, one freed and reused, one moved to a larger size. -/
example : (run 10 POOL start [.malloc 5 false (some 1000), .malloc 6 false (some 2000), .write 1000 0 7, .free 2000,
      .malloc 8 true none, .realloc 1000 20 false (some 3000), .malloc 1 true none, .malloc 5000 false (some 4000), .free 4000,
      .free 3000, .malloc 32 true none, .prealloc 2 100 [some 5000, some 6000], .fini]).map (·.2) =
    some [1000, 2000, 0, 0, 2000, 3000, 1000, 4000, 0, 0, 3000, 272, 0] := by decide +kernel

example : ∃ v, View.Run POOL View.start [.malloc 5 false (some 1000), .free 1000, .malloc 8 true none] v [1000, 0, 1000] :=
  ⟨_, .cons (.malloc (.fresh (by decide) (by decide) (fun _ _ => rfl) rfl ⟨by decide, rfl, fun _ => by simp [View.start]⟩))
    (.cons (.free (.pooled (c := 0) (k := 8) rfl rfl))
      (.cons (.malloc (.reuse (c := 0) (k := 8) (by decide) rfl (by decide) (by simp) rfl)) .nil))⟩

/-- Freeing twice: the list becomes a cycle, and two requests get the same buffer. -/
theorem buffer_double_free_counterexample :
    (run 10 POOL start [.malloc 5 false (some 1000), .free 1000, .free 1000, .malloc 5 true none, .malloc 5 true none]).map
      (·.2) = some [1000, 0, 0, 1000, 1000] := by decide +kernel

/-- A request near the maximum wraps around: seven bytes are allocated, and the header is written beyond them. -/
theorem buffer_huge_counterexample :
    run 10 POOL start [.malloc (2 ^ 64 - 1) false (some 1000)] = none := by
  have h : (getBuffer POOL start (hash POOL (2 ^ 64 - 1)).1 (hash POOL (2 ^ 64 - 1)).2 false (some 1000)) =
      some ({ start with block := upd start.block 1000 (some 7) }, 1000) := by rfl
  simp only [run, step, get]
  rw [if_neg (by decide), h, Option.bind_some]
  simp only []
  rw [if_pos (by decide)]
  unfold poolInit setHeader
  simp only [upd_same]
  rfl

/-- The product of cleared allocation wraps around: a buffer for sixteen bytes is returned. -/
theorem buffer_calloc_counterexample :
    ((run 10 POOL start [.calloc (2 ^ 60 + 1) 16 false (some 1000)]).map fun t => (t.2, t.1.block 1000)) =
      some ([1000], some 24) := by decide +kernel

/-- If the heap fails, reallocation returns null, but the buffer is freed nevertheless: the next request gets it. -/
theorem buffer_realloc_counterexample :
    (run 10 POOL start [.malloc 5 false (some 1000), .realloc 1000 20 true none, .malloc 5 true none]).map (·.2) =
      some [1000, 0, 1000] := by decide +kernel

end Diminuto.Buffer
