import Verif.StrdupLemmas

/-!
# Property C170: copies of strings in buffers, the report on a pool, and the choice of the pool
-/

namespace Diminuto.Strdup

open Diminuto.Buffer

theorem get_small {sizes : List Nat} (hV : Valid sizes) {v v' : View} {nm : Bool} {size r : Nat} {m : Option Nat}
    (h : View.Get sizes v nm size m v' r) : size < 2 ^ 64 := by
  cases h with
  | nothing => decide
  | reuse hp hk hge hlt hs =>
    have := hV.small _ (List.mem_of_getElem? hk)
    omega
  | fail hp hb he hn => omega
  | fresh hp hb he hn hu => omega

/-- What a copy of a string is, after any history: it is defined; it is null exactly if an allocation of so many bytes is; otherwise it is a buffer that was not held, that
is large enough, and that contains the string and a nul.  No other buffer changes.  Whatever is done after that is as after the allocation. -/
def Copies (sizes : List Nat) (os : List Op) (rs : List Nat) (v v' : View) (str : List Byte) (r : Nat) (dup : State → Option (State × Nat)) : Prop :=
  ∃ F s s', (∀ fuel, F ≤ fuel → Buffer.run fuel sizes Buffer.start os = some (s, rs)) ∧ dup s = some (s', r) ∧
    (r ≠ 0 → v.cap r = none ∧ (∃ k, v'.cap r = some k ∧ str.length + 1 ≤ k ∧ s'.block r = some (k + 8)) ∧ Contains s'.content r str) ∧
    (r = 0 → v' = v) ∧ (∀ b, b ≠ r → v'.cap b = v.cap b ∧ s'.content b = s.content b) ∧
    ∀ os' v'' rs', View.Run sizes v' os' v'' rs' → ∃ F' s'', ∀ fuel, F' ≤ fuel → Buffer.run fuel sizes s' os' = some (s'', rs')

theorem copies {sizes : List Nat} (hV : Valid sizes) {os : List Op} {rs : List Nat} {v v' : View} {str : List Byte} {r : Nat} {nm : Bool} {m : Option Nat}
    {dup : State → Option (State × Nat)} (h : View.Run sizes View.start os v rs) (hg : View.Get sizes v nm (str.length + 1) m v' r)
    (hd : ∀ s, Inv sizes s v → ∃ s', dup s = some (s', r) ∧ Inv sizes s' v' ∧ (r ≠ 0 → Contains s'.content r str) ∧
      ∀ b, b ≠ r → s'.content b = s.content b) : Copies sizes os rs v v' str r dup := by
  obtain ⟨F, s, e, hi⟩ := run_inv hV h _ (inv_start sizes)
  obtain ⟨s', e', i', c', o'⟩ := hd s hi
  obtain ⟨s1, -, -, -, g1, g2⟩ := get_step hV hi hg
  refine ⟨F, s, s', e, e', fun hr => ⟨(g1 hr).2.1, ⟨_, (g1 hr).1, capacity_ge _ _, (i'.held r _ (g1 hr).1).2.1⟩, c' hr⟩, g2, fun b hb => ⟨?_, o' b hb⟩, ?_⟩
  · by_cases hr : r = 0
    · rw [g2 hr]
    · exact (g1 hr).2.2 b hb
  · intro os' v'' rs' hr
    obtain ⟨F', s'', e'', -⟩ := run_inv hV hr s' i'
    exact ⟨F', s'', e''⟩

/-- C170: `diminuto_buffer_strdup` copies the string. -/
theorem strdup_copies (sizes : List Nat) (hV : Valid sizes) (os : List Op) (v : View) (rs : List Nat) (h : View.Run sizes View.start os v rs)
    (mem str : List Byte) (hs : IsString mem str) (nm : Bool) (m : Option Nat) (v' : View) (r : Nat) (hg : View.Get sizes v nm (str.length + 1) m v' r) :
    Copies sizes os rs v v' str r fun s => strdup sizes s mem nm m :=
  copies hV h hg fun _ hi => strdup_inv hV hi hs (get_small hV hg) hg

/-- C170: `diminuto_buffer_strndup` copies the string up to `n` characters; what follows them need not be readable. -/
theorem strndup_copies (sizes : List Nat) (hV : Valid sizes) (os : List Op) (v : View) (rs : List Nat) (h : View.Run sizes View.start os v rs)
    (mem str : List Byte) (n : Nat) (hs : IsPrefix mem n str) (nm : Bool) (m : Option Nat) (v' : View) (r : Nat)
    (hg : View.Get sizes v nm (str.length + 1) m v' r) : Copies sizes os rs v v' str r fun s => strndup sizes s mem n nm m :=
  copies hV h hg fun _ hi => strndup_inv hV hi hs (get_small hV hg) hg

/-- C170: both need what they are given to be a string, or so many characters: otherwise they are undefined. -/
theorem strdup_undefined (sizes : List Nat) (s : State) (mem : List Byte) (nm : Bool) (m : Option Nat) :
    ((¬ ∃ str, IsString mem str) → strdup sizes s mem nm m = none) ∧
      ∀ n, (¬ ∃ str, IsPrefix mem n str) → strndup sizes s mem n nm m = none := by
  constructor
  · intro h
    unfold strdup
    cases hs : strlen mem with
    | none => rfl
    | some k =>
      obtain ⟨str, h1, -⟩ := (strlen_iff mem k).1 hs
      exact absurd ⟨str, h1⟩ h
  · intro n h
    unfold strndup
    cases hs : strnlen mem n with
    | none => rfl
    | some k =>
      obtain ⟨str, h1, -⟩ := (strnlen_iff mem n k).1 hs
      exact absurd ⟨str, h1⟩ h

/-- C170: the report returns how many bytes are in the pool. -/
theorem log_bytes (sizes : List Nat) (hV : Valid sizes) (os : List Op) (v : View) (rs : List Nat) (h : View.Run sizes View.start os v rs)
    (hw : bytes v sizes < 2 ^ 64) :
    ∃ F s, ∀ fuel, F ≤ fuel → Buffer.run fuel sizes Buffer.start os = some (s, rs) ∧ log fuel sizes s = some (bytes v sizes) := by
  obtain ⟨F, s, e, hi⟩ := run_inv hV h _ (inv_start sizes)
  obtain ⟨F2, hF⟩ := bound_exists v sizes.length hi.beyond
  have hb : bytesFrom v sizes sizes.length 0 = bytes v sizes := by
    rw [bytesFrom_eq, ← List.range_eq_range']
    rfl
  refine ⟨max F F2, s, fun fuel hf => ⟨e fuel (by omega), ?_⟩⟩
  unfold log
  rw [logLoop_ok hV hi hF sizes.length 0 0 (by omega) (by rw [hb, Nat.zero_add]; exact hw) fuel (by omega), hb, Nat.zero_add]

/-- C170: without `diminuto_buffer_set` nothing is different. -/
theorem no_set (sizes : Nat → List Nat) (hV : Valid (sizes 0)) (os : List Op) (v : View) (rs : List Nat) (h : View.Run (sizes 0) View.start os v rs) :
    ∃ F q, ∀ fuel, F ≤ fuel → run fuel (start sizes) (os.map .op) = some (q, rs) := by
  obtain ⟨F, s, e, -⟩ := run_inv hV h _ (inv_start (sizes 0))
  exact ⟨F, after (start sizes) s os, fun fuel hf => (run_ops fuel os (start sizes) Buffer.start s rs rfl (e fuel hf)).1⟩

/-- C170: the pool may be chosen again and again if before that all buffers are freed and the active pool is emptied: each pool is then as if it were the only one, and in
the end nothing is allocated.  Missing: that the pool may be chosen while buffers are held or in a pool, which is false of buffers that are held. -/
theorem set_sessions_partial (sizes : Nat → List Nat) (hV : ∀ p, Valid (sizes p)) (xs : List Session) (h : ∀ x ∈ xs, x.Good sizes) :
    ∃ F q, (∀ fuel, F ≤ fuel → run fuel (start sizes) (acts xs) = some (q, results xs)) ∧ ∀ a, q.mem.block a = none :=
  sessions_run hV xs h (start sizes) rfl (fun _ _ _ => rfl) fun _ => rfl

/-- C170, false for a pool that is chosen while a buffer is held: with pools of eight and of 4096 bytes, a buffer of eight bytes that is freed to the other pool is handed out
for a request of 4096, and a write within what was requested is undefined. -/
theorem set_held_counterexample :
    let sizes : Nat → List Nat := fun p => if p = 0 then [8] else [4096]
    (∀ p, Valid (sizes p)) ∧
      (run 10 (start sizes) [.op (.malloc 8 false (some 1000)), .set 1, .op (.free 1000), .op (.malloc 4096 false (some 2000))]).map (·.2) =
        some [1000, 1, 0, 1000] ∧
      (run 10 (start sizes) [.op (.malloc 8 false (some 1000)), .set 1, .op (.free 1000), .op (.malloc 4096 false (some 2000)),
        .op (.write 1000 8 1)]).isNone = true := by
  refine ⟨fun p => ?_, by decide +kernel, by decide +kernel⟩
  show Valid (if p = 0 then [8] else [4096])
  split
  · exact ⟨by decide, by decide, by decide⟩
  · exact ⟨by decide, by decide, by decide⟩

/-- C170: a buffer that is freed while a pool with fewer sizes is chosen goes to the heap and to neither of the pools: this is defined, but the pool from which it was
allocated does not get it back. -/
theorem set_longer_counterexample :
    let sizes : Nat → List Nat := fun p => if p = 0 then [8, 16] else [8]
    (∀ p, Valid (sizes p)) ∧
      (run 10 (start sizes) [.op (.malloc 16 false (some 1000)), .set 1, .op (.free 1000), .set 0, .op (.malloc 16 true none)]).map (·.2) =
        some [1000, 1, 0, 0, 0] := by
  refine ⟨fun p => ?_, by decide +kernel⟩
  show Valid (if p = 0 then [8, 16] else [8])
  split
  · exact ⟨by decide, by decide, by decide⟩
  · exact ⟨by decide, by decide, by decide⟩

/-- "ab" is copied to a fresh buffer. -/
example : IsString [97, 98, 0, 7] [97, 98] ∧
    (strdup POOL Buffer.start [97, 98, 0, 7] false (some 1000)).map (fun x => (x.2, x.1.content 1000 0, x.1.content 1000 1, x.1.content 1000 2, x.1.content 1000 3)) =
      some (1000, 97, 98, 0, 0) ∧ (strdup POOL Buffer.start [97, 98] false (some 1000)).isNone = true :=
  ⟨⟨by decide, [7], rfl⟩, by decide +kernel, by decide +kernel⟩

example : ∃ v', View.Get POOL View.start false ([97, 98] : List Byte).length.succ (some 1000) v' 1000 :=
  ⟨_, .fresh (by decide) (by decide) (fun _ _ => rfl) rfl ⟨by decide, rfl, fun _ => by simp [View.start]⟩⟩

example : IsPrefix [97, 98] 2 [97, 98] ∧ IsPrefix [97, 0] 5 [97] ∧
    (strndup POOL Buffer.start [97, 98] 2 false (some 1000)).map (fun x => (x.2, x.1.content 1000 0, x.1.content 1000 1, x.1.content 1000 2)) =
      some (1000, 97, 98, 0) ∧ (strndup POOL Buffer.start [97] 2 false (some 1000)).isNone = true :=
  ⟨⟨by decide, .inl ⟨rfl, [], rfl⟩⟩, ⟨by decide, .inr ⟨by decide, [], rfl⟩⟩, by decide +kernel, by decide +kernel⟩

example : ((Buffer.run 10 POOL Buffer.start [.prealloc 2 100 [some 5000, some 6000], .malloc 8 false (some 1000), .free 1000]).bind
    fun x => log 10 POOL x.1) = some (2 * 136 + 16) := by decide +kernel

example : Session.Good (fun _ => POOL) ⟨1, [.malloc 5 false (some 1000), .free 1000, .fini], [1000, 0, 0]⟩ :=
  ⟨_, .cons (.malloc (.fresh (by decide) (by decide) (fun _ _ => rfl) rfl ⟨by decide, rfl, fun _ => by simp [View.start]⟩))
    (.cons (.free (.pooled (c := 0) (k := 8) rfl rfl)) (.cons .fini .nil)),
    fun a => by
      by_cases h : a = 1000
      · subst h; rfl
      · simp [upd, h, View.start], fun _ => rfl⟩

end Diminuto.Strdup
