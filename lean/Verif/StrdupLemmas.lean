import Verif.StrdupSpec
import Verif.BufferLemmas

/-!
# Lemmas: copies of strings in buffers, the report on a pool, and the choice of the pool
-/

namespace Diminuto.Strdup

open Diminuto.Buffer

theorem strlen_iff : ∀ (mem : List Byte) (n : Nat), strlen mem = some n ↔ ∃ str, IsString mem str ∧ str.length = n := by
  intro mem
  induction mem with
  | nil =>
    intro n
    simp [strlen, IsString]
  | cons b bs ih =>
    intro n
    unfold strlen
    by_cases hb : b = 0
    · rw [if_pos hb]
      subst hb
      constructor
      · intro h
        exact ⟨[], ⟨by simp, bs, rfl⟩, by simpa using h⟩
      · rintro ⟨str, ⟨h0, rest, he⟩, hl⟩
        cases str with
        | nil => simpa using hl
        | cons x xs =>
          simp only [List.cons_append, List.cons.injEq] at he
          exact absurd (by rw [← he.1]; simp) h0
    · rw [if_neg hb]
      constructor
      · intro h
        cases hs : strlen bs with
        | none => rw [hs] at h; simp at h
        | some k =>
          rw [hs] at h
          simp only [Option.map_some, Option.some.injEq] at h
          obtain ⟨str, ⟨h0, rest, he⟩, hl⟩ := (ih k).1 hs
          exact ⟨b :: str, ⟨by simp only [List.mem_cons, not_or]; exact ⟨fun h => hb h.symm, h0⟩, rest, by rw [he]; rfl⟩,
            by rw [List.length_cons, hl]; exact h⟩
      · rintro ⟨str, ⟨h0, rest, he⟩, hl⟩
        cases str with
        | nil =>
          simp only [List.nil_append, List.cons.injEq] at he
          exact absurd he.1 hb
        | cons x xs =>
          simp only [List.cons_append, List.cons.injEq] at he
          rw [(ih xs.length).2 ⟨xs, ⟨fun h => h0 (List.mem_cons_of_mem _ h), rest, he.2⟩, rfl⟩]
          simpa using hl

theorem strnlen_iff : ∀ (mem : List Byte) (n k : Nat), strnlen mem n = some k ↔ ∃ str, IsPrefix mem n str ∧ str.length = k := by
  intro mem
  induction mem with
  | nil =>
    intro n k
    cases n with
    | zero =>
      simp only [strnlen, Option.some.injEq]
      constructor
      · intro h
        exact ⟨[], ⟨by simp, .inl ⟨rfl, [], rfl⟩⟩, h⟩
      · rintro ⟨str, ⟨-, h | h⟩, hl⟩
        · omega
        · omega
    | succ n =>
      simp only [strnlen]
      constructor
      · intro h; exact (nomatch h)
      · rintro ⟨str, ⟨-, ⟨h, rest, he⟩ | ⟨h, rest, he⟩⟩, hl⟩
        · have := congrArg List.length he
          simp at this
          omega
        · simp at he
  | cons b bs ih =>
    intro n k
    cases n with
    | zero =>
      simp only [strnlen, Option.some.injEq]
      constructor
      · intro h
        exact ⟨[], ⟨by simp, .inl ⟨rfl, b :: bs, rfl⟩⟩, h⟩
      · rintro ⟨str, ⟨-, h | h⟩, hl⟩
        · omega
        · omega
    | succ n =>
      simp only [strnlen]
      by_cases hb : b = 0
      · rw [if_pos hb]
        subst hb
        constructor
        · intro h
          exact ⟨[], ⟨by simp, .inr ⟨by simp, bs, rfl⟩⟩, by simpa using h⟩
        · rintro ⟨str, ⟨h0, h⟩, hl⟩
          cases str with
          | nil => simpa using hl
          | cons x xs =>
            rcases h with ⟨-, rest, he⟩ | ⟨-, rest, he⟩ <;>
            · simp only [List.cons_append, List.cons.injEq] at he
              exact absurd (by rw [← he.1]; simp) h0
      · rw [if_neg hb]
        constructor
        · intro h
          cases hs : strnlen bs n with
          | none => rw [hs] at h; simp at h
          | some j =>
            rw [hs] at h
            simp only [Option.map_some, Option.some.injEq] at h
            obtain ⟨str, ⟨h0, hh⟩, hl⟩ := (ih n j).1 hs
            refine ⟨b :: str, ⟨by simp only [List.mem_cons, not_or]; exact ⟨fun h => hb h.symm, h0⟩, ?_⟩, by rw [List.length_cons, hl]; exact h⟩
            rcases hh with ⟨h1, rest, he⟩ | ⟨h1, rest, he⟩
            · exact .inl ⟨by rw [List.length_cons, h1], rest, by rw [he]; rfl⟩
            · exact .inr ⟨by rw [List.length_cons]; omega, rest, by rw [he]; rfl⟩
        · rintro ⟨str, ⟨h0, h⟩, hl⟩
          cases str with
          | nil =>
            rcases h with ⟨h, -⟩ | ⟨-, rest, he⟩
            · simp at h
            · simp only [List.nil_append, List.cons.injEq] at he
              exact absurd he.1 hb
          | cons x xs =>
            have : IsPrefix bs n xs := by
              refine ⟨fun h => h0 (List.mem_cons_of_mem _ h), ?_⟩
              rcases h with ⟨h1, rest, he⟩ | ⟨h1, rest, he⟩
              · simp only [List.cons_append, List.cons.injEq] at he
                simp only [List.length_cons] at h1
                exact .inl ⟨by omega, rest, he.2⟩
              · simp only [List.cons_append, List.cons.injEq] at he
                simp only [List.length_cons] at h1
                exact .inr ⟨by omega, rest, he.2⟩
            rw [(ih n xs.length).2 ⟨xs, this, rfl⟩]
            simpa using hl

/-- A byte that is within the payload is written. -/
theorem write_ok {sizes : List Nat} {s : State} {v : View} (hi : Inv sizes s v) {a k i : Nat} (hc : v.cap a = some k) (hik : i < k) (b : Byte) :
    ∃ s', write s a i b = some s' ∧ Inv sizes s' v ∧ (∀ c, c ≠ a → s'.content c = s.content c) ∧
      s'.content a i = b ∧ ∀ j, j ≠ i → s'.content a j = s.content a j := by
  obtain ⟨h1, h2, -⟩ := hi.held a k hc
  refine ⟨{ s with content := upd s.content a (upd (s.content a) i b) }, ?_, inv_content hi _, ?_, ?_, ?_⟩
  · unfold write
    rw [if_pos]
    unfold inPayload
    rw [h2]
    simp only [decide_eq_true_eq]
    omega
  · intro c hc
    exact upd_ne _ _ hc
  · show upd s.content a _ a i = b
    rw [upd_same, upd_same]
  · intro j hj
    show upd s.content a _ a j = _
    rw [upd_same, upd_ne _ _ hj]

/-- What a copy does: the bytes from `i` on are these, and nothing else changes. -/
structure Copied (sizes : List Nat) (v : View) (a i : Nat) (bs : List Byte) (s s' : State) : Prop where
  inv : Inv sizes s' v
  others : ∀ c, c ≠ a → s'.content c = s.content c
  below : ∀ j, j < i → s'.content a j = s.content a j
  bytes : ∀ j b, bs[j]? = some b → s'.content a (i + j) = b

theorem copied_nil {sizes : List Nat} {v : View} {a i : Nat} {s : State} (hi : Inv sizes s v) : Copied sizes v a i [] s s :=
  ⟨hi, fun _ _ => rfl, fun _ _ => rfl, fun j b h => by simp at h⟩

theorem copied_cons {sizes : List Nat} {v : View} {a i : Nat} {b : Byte} {bs : List Byte} {s s1 s2 : State}
    (h1 : ∀ c, c ≠ a → s1.content c = s.content c) (h2 : s1.content a i = b) (h3 : ∀ j, j ≠ i → s1.content a j = s.content a j)
    (h : Copied sizes v a (i + 1) bs s1 s2) : Copied sizes v a i (b :: bs) s s2 := by
  refine ⟨h.inv, fun c hc => (h.others c hc).trans (h1 c hc), fun j hj => ?_, fun j x hx => ?_⟩
  · rw [h.below j (by omega), h3 j (by omega)]
  · cases j with
    | zero =>
      simp only [List.getElem?_cons_zero, Option.some.injEq] at hx
      rw [Nat.add_zero, h.below i (by omega), h2, hx]
    | succ j =>
      simp only [List.getElem?_cons_succ] at hx
      have := h.bytes j x hx
      rwa [show i + (j + 1) = i + 1 + j from by omega]

theorem strcpy_ok {sizes : List Nat} {v : View} {a k : Nat} (hc : v.cap a = some k) (rest : List Byte) : ∀ (str : List Byte) (i : Nat) (s : State),
    Inv sizes s v → 0 ∉ str → i + str.length < k →
      ∃ s', strcpy s a i (str ++ 0 :: rest) = some s' ∧ Copied sizes v a i (str ++ [0]) s s' := by
  intro str
  induction str with
  | nil =>
    intro i s hi _ hk
    simp only [List.length_nil, Nat.add_zero] at hk
    obtain ⟨s1, e, i1, c1, c2, c3⟩ := write_ok hi hc hk 0
    refine ⟨s1, ?_, copied_cons c1 c2 c3 (copied_nil i1)⟩
    simp only [List.nil_append, strcpy, e, Option.bind_some, if_true]
  | cons b bs ih =>
    intro i s hi h0 hk
    simp only [List.length_cons] at hk
    obtain ⟨s1, e, i1, c1, c2, c3⟩ := write_ok hi hc (show i < k by omega) b
    obtain ⟨s2, e2, h2⟩ := ih (i + 1) s1 i1 (fun h => h0 (List.mem_cons_of_mem _ h)) (by omega)
    refine ⟨s2, ?_, copied_cons c1 c2 c3 h2⟩
    simp only [List.cons_append, strcpy, e, Option.bind_some]
    rw [if_neg (by rintro rfl; exact h0 (by simp)), e2]

theorem strncpy_ok {sizes : List Nat} {v : View} {a k : Nat} (hc : v.cap a = some k) (rest : List Byte) : ∀ (str : List Byte) (i : Nat) (s : State),
    Inv sizes s v → 0 ∉ str → i + str.length ≤ k →
      ∃ s', strncpy s a i (str ++ rest) str.length = some s' ∧ Copied sizes v a i str s s' := by
  intro str
  induction str with
  | nil =>
    intro i s hi _ _
    exact ⟨s, by cases rest <;> rfl, copied_nil hi⟩
  | cons b bs ih =>
    intro i s hi h0 hk
    simp only [List.length_cons] at hk
    obtain ⟨s1, e, i1, c1, c2, c3⟩ := write_ok hi hc (show i < k by omega) b
    obtain ⟨s2, e2, h2⟩ := ih (i + 1) s1 i1 (fun h => h0 (List.mem_cons_of_mem _ h)) (by omega)
    refine ⟨s2, ?_, copied_cons c1 c2 c3 h2⟩
    simp only [List.cons_append, List.length_cons, strncpy, e, Option.bind_some]
    rw [if_neg (by rintro rfl; exact h0 (by simp)), e2]

theorem strdup_inv {sizes : List Nat} (hV : Valid sizes) {s : State} {v v' : View} (hi : Inv sizes s v) {mem str : List Byte} (hs : IsString mem str)
    (hl : str.length + 1 < W) {nm : Bool} {m : Option Nat} {r : Nat} (hg : View.Get sizes v nm (str.length + 1) m v' r) :
    ∃ s', strdup sizes s mem nm m = some (s', r) ∧ Inv sizes s' v' ∧ (r ≠ 0 → Contains s'.content r str) ∧
      ∀ b, b ≠ r → s'.content b = s.content b := by
  obtain ⟨s1, e1, i1, f1, g1, -⟩ := get_step hV hi hg
  have hlen := (strlen_iff mem str.length).2 ⟨str, hs, rfl⟩
  obtain ⟨h0, rest, rfl⟩ := hs
  unfold strdup
  rw [hlen]
  simp only [Option.bind_some, Nat.mod_eq_of_lt hl, e1]
  by_cases hr : r = 0
  · rw [if_neg (by simpa using hr)]
    exact ⟨s1, rfl, i1, fun h => absurd hr h, fun b _ => by rw [f1]⟩
  · rw [if_pos hr]
    have hcap := capacity_ge sizes (str.length + 1)
    obtain ⟨s2, e2, h2⟩ := strcpy_ok (g1 hr).1 rest str 0 s1 i1 h0 (by omega)
    rw [e2]
    refine ⟨s2, rfl, h2.inv, fun _ => ⟨fun i b hb => ?_, ?_⟩, fun b hb => by rw [h2.others b hb, f1]⟩
    · have := h2.bytes i b (by rw [List.getElem?_append_left (List.getElem?_eq_some_iff.1 hb).1]; exact hb)
      simpa using this
    · have := h2.bytes str.length 0 (by simp)
      simpa using this

theorem strndup_inv {sizes : List Nat} (hV : Valid sizes) {s : State} {v v' : View} (hi : Inv sizes s v) {mem str : List Byte} {n : Nat} (hs : IsPrefix mem n str)
    (hl : str.length + 1 < W) {nm : Bool} {m : Option Nat} {r : Nat} (hg : View.Get sizes v nm (str.length + 1) m v' r) :
    ∃ s', strndup sizes s mem n nm m = some (s', r) ∧ Inv sizes s' v' ∧ (r ≠ 0 → Contains s'.content r str) ∧
      ∀ b, b ≠ r → s'.content b = s.content b := by
  obtain ⟨s1, e1, i1, f1, g1, -⟩ := get_step hV hi hg
  have hlen := (strnlen_iff mem n str.length).2 ⟨str, hs, rfl⟩
  obtain ⟨h0, hh⟩ := hs
  have hrest : ∃ rest, mem = str ++ rest := by
    rcases hh with ⟨-, rest, he⟩ | ⟨-, rest, he⟩
    · exact ⟨rest, he⟩
    · exact ⟨0 :: rest, he⟩
  obtain ⟨rest, rfl⟩ := hrest
  unfold strndup
  rw [hlen]
  simp only [Option.bind_some, Nat.mod_eq_of_lt hl, e1]
  by_cases hr : r = 0
  · rw [if_neg (by simpa using hr)]
    exact ⟨s1, rfl, i1, fun h => absurd hr h, fun b _ => by rw [f1]⟩
  · rw [if_pos hr]
    have hcap := capacity_ge sizes (str.length + 1)
    obtain ⟨s2, e2, h2⟩ := strncpy_ok (g1 hr).1 rest str 0 s1 i1 h0 (by omega)
    obtain ⟨s3, e3, i3, c1, c2, c3⟩ := write_ok h2.inv (g1 hr).1 (show str.length < capacity sizes (str.length + 1) by omega) 0
    rw [e2]
    simp only [Option.bind_some, e3, Option.map_some]
    refine ⟨s3, rfl, i3, fun _ => ⟨fun i b hb => ?_, c2⟩, fun b hb => by rw [c1 b hb, h2.others b hb, f1]⟩
    have hlt := (List.getElem?_eq_some_iff.1 hb).1
    rw [c3 i (by omega)]
    have := h2.bytes i b hb
    simpa using this

theorem countLoop_ok {s : State} {k : Nat} : ∀ (l : List Nat) (p n : Nat), Chain s.header p l → (∀ a ∈ l, s.block a = some (k + 8)) →
    n + l.length < W → ∀ fuel, l.length < fuel → countLoop s fuel p n = some (n + l.length) := by
  intro l
  induction l with
  | nil =>
    intro p n h _ _ fuel hf
    obtain ⟨f, rfl⟩ : ∃ f, fuel = f + 1 := ⟨fuel - 1, by simp at hf; omega⟩
    have : p = 0 := h
    subst this
    rfl
  | cons a l ih =>
    intro p n h hb hn fuel hf
    obtain ⟨h1, h2, h3⟩ := h
    obtain ⟨f, rfl⟩ : ∃ f, fuel = f + 1 := ⟨fuel - 1, by simp at hf; omega⟩
    simp only [List.length_cons] at hn hf
    subst h1
    unfold countLoop
    rw [if_pos h2, getHeader_some (hb p (by simp))]
    simp only [Option.bind_some]
    rw [Nat.mod_eq_of_lt (by omega), ih _ (n + 1) h3 (fun x hx => hb x (by simp [hx])) (by omega) f (by omega)]
    simp only [List.length_cons, Option.some.injEq]
    omega

/-- The bytes of the `n` lists from `c` on. -/
def bytesFrom (v : View) (sizes : List Nat) : Nat → Nat → Nat
  | 0, _ => 0
  | n + 1, c => (v.stack c).length * (sizes.getD c 0 + 8) + bytesFrom v sizes n (c + 1)

theorem bytesFrom_eq (v : View) (sizes : List Nat) : ∀ n c, bytesFrom v sizes n c =
    ((List.range' c n).map fun c => (v.stack c).length * (sizes.getD c 0 + 8)).sum := by
  intro n
  induction n with
  | zero => intro c; rfl
  | succ n ih => intro c; simp only [bytesFrom, List.range'_succ, List.map_cons, List.sum_cons, ih]

theorem logLoop_ok {sizes : List Nat} (hV : Valid sizes) {s : State} {v : View} (hi : Inv sizes s v) {F : Nat}
    (hF : ∀ c, (v.stack c).length < F) : ∀ (n c total : Nat), c + n = sizes.length → total + bytesFrom v sizes n c < W →
      ∀ fuel, F ≤ fuel → logLoop fuel sizes s n c total = some (total + bytesFrom v sizes n c) := by
  intro n
  induction n with
  | zero => intro c total _ _ fuel _; rfl
  | succ n ih =>
    intro c total hc hw fuel hf
    have hcl : c < sizes.length := by omega
    have hk : sizes[c]? = some (sizes.getD c 0) := by simp [hcl]
    have hsm := hV.small (sizes.getD c 0) (List.mem_of_getElem? hk)
    have hFc := hF c
    simp only [bytesFrom] at hw
    have hmul : (v.stack c).length ≤ (v.stack c).length * (sizes.getD c 0 + 8) := Nat.le_mul_of_pos_right _ (by omega)
    unfold logLoop
    rw [countLoop_ok (k := sizes.getD c 0) (v.stack c) (s.pool c) 0 (hi.chain c hcl) (fun a ha => (hi.pooled c a _ ha hk).2)
      (by omega) fuel (by omega)]
    simp only [Option.bind_some, Nat.zero_add]
    rw [Nat.mod_eq_of_lt (show sizes.getD c 0 + 8 < W from hsm), Nat.mod_eq_of_lt (show (v.stack c).length * (sizes.getD c 0 + 8) < W by omega),
      Nat.mod_eq_of_lt (show total + (v.stack c).length * (sizes.getD c 0 + 8) < W by omega)]
    rw [ih (c + 1) _ (by omega) (by omega) fuel hf]
    simp only [bytesFrom, Option.some.injEq]
    omega

theorem bound_exists (v : View) (n : Nat) (hz : ∀ c, n ≤ c → v.stack c = []) : ∃ F, ∀ c, (v.stack c).length < F := by
  have : ∀ k, ∃ F, ∀ c, c < k → (v.stack c).length < F := by
    intro k
    induction k with
    | zero => exact ⟨0, fun c h => absurd h (by omega)⟩
    | succ k ih =>
      obtain ⟨F, hF⟩ := ih
      refine ⟨max F ((v.stack k).length + 1), fun c hc => ?_⟩
      by_cases h : c = k
      · subst h; omega
      · have := hF c (by omega); omega
  obtain ⟨F, hF⟩ := this n
  refine ⟨F + 1, fun c => ?_⟩
  by_cases h : c < n
  · have := hF c h; omega
  · rw [hz c (by omega)]; simp

theorem run_append (fuel : Nat) : ∀ (as bs : List Act) (q q1 q2 : Pools) (r1 r2 : List Nat), run fuel q as = some (q1, r1) →
    run fuel q1 bs = some (q2, r2) → run fuel q (as ++ bs) = some (q2, r1 ++ r2) := by
  intro as
  induction as with
  | nil =>
    intro bs q q1 q2 r1 r2 h1 h2
    simp only [run, Option.some.injEq, Prod.mk.injEq] at h1
    obtain ⟨rfl, rfl⟩ := h1
    exact h2
  | cons a as ih =>
    intro bs q q1 q2 r1 r2 h1 h2
    simp only [run] at h1
    cases hs : step fuel q a with
    | none => rw [hs] at h1; simp at h1
    | some x =>
      rw [hs] at h1
      simp only [Option.bind_some] at h1
      cases hr : run fuel x.1 as with
      | none => rw [hr] at h1; simp at h1
      | some y =>
        rw [hr] at h1
        simp only [Option.map_some, Option.some.injEq, Prod.mk.injEq] at h1
        obtain ⟨rfl, rfl⟩ := h1
        simp only [List.cons_append, run, hs, Option.bind_some, ih bs x.1 y.1 q2 y.2 r2 hr h2, Option.map_some]

/-- The pools after calls that leave this state. -/
def after (q : Pools) (s : State) : List Op → Pools
  | [] => q
  | _ :: _ => { q with heads := upd q.heads q.active s.pool, mem := s }

theorem upd_upd {α : Type} (f : Nat → α) (i : Nat) (x y : α) : upd (upd f i x) i y = upd f i y := by
  funext j
  unfold upd
  split <;> rfl

/-- Without a choice of the pool the pools are as one. -/
theorem run_ops (fuel : Nat) : ∀ (os : List Op) (q : Pools) (s s' : State) (rs : List Nat), s = { q.mem with pool := q.heads q.active } →
    Buffer.run fuel (q.sizes q.active) s os = some (s', rs) → run fuel q (os.map .op) = some (after q s' os, rs) ∧
      s' = { (after q s' os).mem with pool := (after q s' os).heads q.active } := by
  intro os
  induction os with
  | nil =>
    intro q s s' rs hs h
    simp only [Buffer.run, Option.some.injEq, Prod.mk.injEq] at h
    obtain ⟨rfl, rfl⟩ := h
    exact ⟨rfl, hs⟩
  | cons o os ih =>
    intro q s s' rs hs h
    simp only [Buffer.run] at h
    cases hst : Buffer.step fuel (q.sizes q.active) s o with
    | none => rw [hst] at h; simp at h
    | some x =>
      rw [hst] at h
      simp only [Option.bind_some] at h
      cases hr : Buffer.run fuel (q.sizes q.active) x.1 os with
      | none => rw [hr] at h; simp at h
      | some y =>
        rw [hr] at h
        simp only [Option.map_some, Option.some.injEq, Prod.mk.injEq] at h
        obtain ⟨rfl, rfl⟩ := h
        obtain ⟨e, -⟩ := ih { q with heads := upd q.heads q.active x.1.pool, mem := x.1 } x.1 y.1 y.2
          (by simp only [upd_same]) hr
        refine ⟨?_, by simp only [after, upd_same]⟩
        simp only [List.map_cons, run, step]
        rw [← hs, hst]
        simp only [Option.map_some, Option.bind_some, e]
        cases os with
        | nil =>
          simp only [Buffer.run, Option.some.injEq] at hr
          rw [← hr]
          rfl
        | cons o' os => simp only [after, upd_upd]

theorem after_keeps (q : Pools) (s : State) (os : List Op) : (after q s os).sizes = q.sizes ∧ (after q s os).active = q.active ∧
    ∀ p, p ≠ q.active → (after q s os).heads p = q.heads p := by
  cases os with
  | nil => exact ⟨rfl, rfl, fun _ _ => rfl⟩
  | cons o os => exact ⟨rfl, rfl, fun p hp => upd_ne _ _ hp⟩

theorem clean_eq {v : View} (h : View.Clean v) : v = View.start := by
  obtain ⟨stack, cap⟩ := v
  obtain ⟨h1, h2⟩ := h
  simp only at h1 h2
  simp only [View.start, View.mk.injEq]
  exact ⟨funext h2, funext h1⟩

theorem inv_clean {sizes : List Nat} {s : State} (h1 : ∀ c, c < sizes.length → s.pool c = 0) (h2 : ∀ a, s.block a = none) :
    Inv sizes s View.start where
  chain c hc := h1 c hc
  beyond _ _ := rfl
  nodup _ := by simp [View.start]
  apart _ _ _ h := by simp [View.start] at h
  held _ _ h := by simp [View.start] at h
  pooled _ _ _ h := by simp [View.start] at h
  rest a _ _ := h2 a

theorem sessions_run {sizes : Nat → List Nat} (hV : ∀ p, Valid (sizes p)) : ∀ (xs : List Session), (∀ x ∈ xs, x.Good sizes) →
    ∀ q : Pools, q.sizes = sizes → (∀ p c, c < (sizes p).length → q.heads p c = 0) → (∀ a, q.mem.block a = none) →
      ∃ F q', (∀ fuel, F ≤ fuel → run fuel q (acts xs) = some (q', results xs)) ∧ ∀ a, q'.mem.block a = none := by
  intro xs
  induction xs with
  | nil => intro _ q _ _ hb; exact ⟨0, q, fun _ _ => rfl, hb⟩
  | cons x xs ih =>
    intro hg q hs hh hb
    obtain ⟨v, hrun, hclean⟩ := hg x (by simp)
    rw [clean_eq hclean] at hrun
    let q0 : Pools := { q with active := x.pool }
    obtain ⟨F1, s1, e1, i1⟩ := run_inv (hV x.pool) hrun { q.mem with pool := q.heads x.pool } (inv_clean (hh x.pool) hb)
    have hq : ∀ fuel, F1 ≤ fuel → run fuel q0 (x.ops.map .op) = some (after q0 s1 x.ops, x.results) ∧
        s1 = { (after q0 s1 x.ops).mem with pool := (after q0 s1 x.ops).heads x.pool } := fun fuel hf =>
      run_ops fuel x.ops q0 _ s1 x.results rfl (by rw [show q0.sizes q0.active = sizes x.pool from by rw [← hs]]; exact e1 fuel hf)
    obtain ⟨a1, a2, a4⟩ := after_keeps q0 s1 x.ops
    have a3 := (hq F1 (Nat.le_refl _)).2
    generalize after q0 s1 x.ops = q1 at *
    have hpool : ∀ c, s1.pool c = q1.heads x.pool c := fun c => by rw [a3]
    have hblock : ∀ a, s1.block a = q1.mem.block a := fun a => by rw [a3]
    obtain ⟨F2, q2, e2, h2⟩ := ih (fun y hy => hg y (by simp [hy])) q1 (a1.trans hs) (fun p c hc => by
      by_cases hp : p = x.pool
      · rw [hp, ← hpool c]
        rw [hp] at hc
        exact i1.chain c hc
      · rw [a4 p hp]
        exact hh p c hc) (fun a => by rw [← hblock a]; exact i1.rest a rfl (fun c => by simp [View.start]))
    refine ⟨max F1 F2, q2, fun fuel hf => ?_, h2⟩
    show run fuel q (.set x.pool :: (x.ops.map .op ++ acts xs)) = _
    simp only [run, step, Option.bind_some]
    have := run_append fuel _ _ q0 q1 q2 x.results (results xs) (hq fuel (by omega)).1 (e2 fuel (by omega))
    rw [show ({ sizes := q.sizes, heads := q.heads, active := x.pool, mem := q.mem } : Pools) = q0 from rfl, this]
    rfl

end Diminuto.Strdup
