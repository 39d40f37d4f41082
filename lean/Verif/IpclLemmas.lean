import Verif.IpclSpec
import Verif.CanonicalProps

/-!
# Lemmas for the paths and addresses of local sockets
-/

namespace Diminuto.Ipcl

theorem strncpy_length (n : Nat) (s : List Byte) : (strncpy n s).length = n := by
  unfold strncpy
  rw [List.length_append, List.length_take, List.length_replicate]
  omega

theorem strncpyz_length (n : Nat) (s : List Byte) : (strncpyz n s).length = n := by
  unfold strncpyz
  rw [List.length_set, strncpy_length]

theorem strncpy_short {n : Nat} {s : List Byte} (h : s.length < n) : strncpy n s = s ++ 0#8 :: List.replicate (n - s.length - 1) 0#8 := by
  unfold strncpy
  rw [List.take_of_length_le (by omega), show n - s.length = (n - s.length - 1) + 1 by omega, List.replicate_succ]
  simp

theorem strncpyz_holds {n : Nat} {s : List Byte} (hn : 0 < n) (h0 : 0#8 ∉ s) : Holds (strncpyz n s) (s.take (n - 1)) := by
  refine ⟨fun h => h0 (List.mem_of_mem_take h), ?_⟩
  unfold strncpyz
  by_cases h : s.length < n
  · rw [strncpy_short h, List.take_of_length_le (by omega), List.set_append_right _ _ (by omega)]
    cases hk : n - 1 - s.length with
    | zero => exact ⟨_, rfl⟩
    | succ k => exact ⟨_, rfl⟩
  · unfold strncpy
    rw [show n - s.length = 0 by omega, List.replicate_zero, List.append_nil]
    have e : s.take n = s.take (n - 1) ++ (s.drop (n - 1)).take 1 := by
      conv => lhs; rw [show n = (n - 1) + 1 by omega]
      rw [List.take_add]
    have hl : (s.take (n - 1)).length = n - 1 := by rw [List.length_take]; omega
    have h1 : (s.drop (n - 1)).length ≠ 0 := by rw [List.length_drop]; omega
    rw [e, List.set_append_right _ _ (by omega), hl, Nat.sub_self]
    cases hd : s.drop (n - 1) with
    | nil => rw [hd] at h1; exact absurd rfl h1
    | cons c r => exact ⟨[], rfl⟩

theorem holds_exists {b : List Byte} (h : 0#8 ∈ b) : ∃ s, Holds b s := by
  induction b with
  | nil => cases h
  | cons c r ih =>
    by_cases hc : c = 0#8
    · exact ⟨[], by simp, r, by rw [hc]; rfl⟩
    · have : 0#8 ∈ r := by
        rcases List.mem_cons.1 h with h | h
        · exact absurd h.symm hc
        · exact h
      obtain ⟨s, h0, t, ht⟩ := ih this
      refine ⟨c :: s, fun h => ?_, t, by rw [ht]; rfl⟩
      rcases List.mem_cons.1 h with h | h
      · exact hc h.symm
      · exact h0 h

theorem holds_text {b s : List Byte} (h : Holds b s) : Number.text b = s := by
  obtain ⟨h0, t, rfl⟩ := h
  unfold Number.text
  rw [List.takeWhile_append_of_pos (by
    intro x hx
    apply decide_eq_true
    rintro rfl
    exact h0 hx)]
  simp

theorem holds_unique {b s t : List Byte} (h : Holds b s) (h' : Holds b t) : s = t := (holds_text h).symm.trans (holds_text h')

theorem below_eq (pre file : List Byte) : (if pre.getLast? = some 47#8 then pre else pre ++ [47#8]) ++ file = below pre file := by
  unfold below
  split <;> simp

theorem splits_file {p dir file : List Byte} (h : Canonical.Splits p dir file) : 47#8 ∉ file := by
  cases h with
  | plain _ h => exact h
  | directory _ _ _ _ _ => simp
  | nominal _ _ h _ _ => exact h

theorem getLast_index (l : List Byte) : l[l.length - 1]? = l.getLast? := (List.getLast?_eq_getElem? (l := l)).symm

theorem below_last_file {pre file : List Byte} (hf : file ≠ []) : (below pre file).getLast? = file.getLast? := by
  unfold below
  have hl : file.getLast? = some (file.getLast hf) := List.getLast?_eq_some_getLast hf
  split
  · rw [List.getLast?_append, hl]; rfl
  · rw [List.getLast?_append, List.getLast?_cons, hl]; rfl

theorem below_last_nil (pre : List Byte) : (below pre []).getLast? = some 47#8 := by
  unfold below
  split
  · rename_i h; rw [List.append_nil]; exact h
  · simp

theorem below_length (pre file : List Byte) : (below pre file).length ≤ 1 + pre.length + file.length ∧ pre.length + file.length ≤ (below pre file).length := by
  unfold below
  split
  · rw [List.length_append]; omega
  · rw [List.length_append, List.length_cons]; omega

theorem last_slash {file : List Byte} (h : 47#8 ∉ file) : file.getLast? ≠ some 47#8 := fun e => h (List.mem_of_getLast? e)

theorem strncmp_zero (n : Nat) : ∀ p q : List Byte, p.length < n → q.length < n → 0#8 ∉ p → 0#8 ∉ q → (strncmp n p q = 0 ↔ p = q) := by
  induction n with
  | zero => intro p q hp; omega
  | succ n ih =>
    intro p q hp hq h0 h1
    cases p with
    | nil =>
      cases q with
      | nil => simp [strncmp]
      | cons b t =>
        have : b.toNat ≠ 0 := fun e => h1 (by rw [show (0#8 : Byte) = b from (BitVec.eq_of_toNat_eq e).symm]; exact List.mem_cons_self ..)
        simp only [strncmp, reduceCtorEq, iff_false]
        omega
    | cons a s =>
      cases q with
      | nil =>
        have : a.toNat ≠ 0 := fun e => h0 (by rw [show (0#8 : Byte) = a from (BitVec.eq_of_toNat_eq e).symm]; exact List.mem_cons_self ..)
        simp only [strncmp, reduceCtorEq, iff_false]
        omega
      | cons b t =>
        simp only [List.length_cons] at hp hq
        simp only [strncmp]
        by_cases e : a = b
        · rw [if_pos e, ih s t (by omega) (by omega) (fun h => h0 (List.mem_cons_of_mem _ h)) (fun h => h1 (List.mem_cons_of_mem _ h)), e]
          simp
        · rw [if_neg e]
          have : a.toNat ≠ b.toNat := fun h => e (BitVec.eq_of_toNat_eq h)
          constructor
          · intro h; omega
          · intro h; simp only [List.cons.injEq] at h; exact absurd h.1 e

theorem strncmp_less (n : Nat) : ∀ p q : List Byte, p.length < n → q.length < n → 0#8 ∉ p → 0#8 ∉ q → (strncmp n p q < 0 ↔ Less p q) := by
  induction n with
  | zero => intro p q hp; omega
  | succ n ih =>
    intro p q hp hq h0 h1
    cases p with
    | nil =>
      cases q with
      | nil =>
        simp only [strncmp]
        exact ⟨fun h => absurd h (by decide), fun h => by cases h⟩
      | cons b t =>
        have : b.toNat ≠ 0 := fun e => h1 (by rw [show (0#8 : Byte) = b from (BitVec.eq_of_toNat_eq e).symm]; exact List.mem_cons_self ..)
        simp only [strncmp]
        exact ⟨fun _ => .nil, fun _ => by omega⟩
    | cons a s =>
      cases q with
      | nil =>
        simp only [strncmp]
        exact ⟨fun h => by omega, fun h => by cases h⟩
      | cons b t =>
        simp only [List.length_cons] at hp hq
        simp only [strncmp]
        by_cases e : a = b
        · subst e
          rw [if_pos rfl, ih s t (by omega) (by omega) (fun h => h0 (List.mem_cons_of_mem _ h)) (fun h => h1 (List.mem_cons_of_mem _ h))]
          constructor
          · exact .tail
          · intro h
            cases h with
            | head h => omega
            | tail h => exact h
        · rw [if_neg e]
          constructor
          · intro h; exact .head (by omega)
          · intro h
            cases h with
            | head h => omega
            | tail h => exact absurd rfl e

theorem strncmp_neg (n : Nat) : ∀ p q : List Byte, strncmp n q p = -strncmp n p q := by
  induction n with
  | zero => intro p q; simp [strncmp]
  | succ n ih =>
    intro p q
    cases p <;> cases q <;> simp only [strncmp] <;> try omega
    rename_i a s b t
    by_cases e : a = b
    · rw [if_pos e, if_pos e.symm, ih]
    · rw [if_neg e, if_neg (Ne.symm e)]; omega

theorem take_eq_of_strncpy {n : Nat} {p q : List Byte} (hp : p.length ≤ n) (hq : q.length ≤ n) (h0 : 0#8 ∉ p) (h1 : 0#8 ∉ q)
    (h : strncpy n p = strncpy n q) : p = q := by
  have key : ∀ s : List Byte, s.length ≤ n → 0#8 ∉ s → (strncpy n s).takeWhile (· ≠ 0#8) = s := by
    intro s hs h
    unfold strncpy
    rw [List.take_of_length_le hs, List.takeWhile_append_of_pos (by
      intro x hx
      apply decide_eq_true
      rintro rfl
      exact h hx)]
    cases n - s.length with
    | zero => simp
    | succ k => simp [List.replicate_succ]
  rw [← key p hp h0, ← key q hq h1, h]

end Diminuto.Ipcl
