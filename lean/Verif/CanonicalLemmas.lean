import Verif.CanonicalSpec

/-!
# Lemmas: path canonicalisation (C49)
-/

namespace Diminuto.Canonical

theorem strrchr_none {c : Byte} {l : List Byte} : strrchr c l = none ↔ c ∉ l := by
  induction l with
  | nil => simp [strrchr]
  | cons b l ih =>
    simp only [strrchr]
    split
    · rename_i i hi
      simp only [reduceCtorEq, false_iff]
      intro h
      rw [List.mem_cons] at h
      have : c ∈ l := Classical.byContradiction fun hc => by rw [ih.2 hc] at hi; simp at hi
      exact h (.inr this)
    · rename_i hn
      have := ih.1 hn
      split
      · rename_i hb; simp [hb]
      · rename_i hb
        simp only [List.mem_cons, this, or_false, true_iff]
        exact fun h => hb h.symm

theorem strrchr_append (c : Byte) (file : List Byte) (hf : c ∉ file) : ∀ dir : List Byte, strrchr c (dir ++ c :: file) = some dir.length := by
  intro dir
  induction dir with
  | nil => simp [strrchr, strrchr_none.2 hf]
  | cons b dir ih => simp [strrchr, ih]

/-- Every string with a slash has a last one. -/
theorem exists_last (c : Byte) : ∀ l : List Byte, c ∈ l → ∃ dir file, c ∉ file ∧ l = dir ++ c :: file := by
  intro l
  induction l with
  | nil => simp
  | cons b l ih =>
    intro h
    by_cases hl : c ∈ l
    · obtain ⟨dir, file, h1, h2⟩ := ih hl
      exact ⟨b :: dir, file, h1, by simp [h2]⟩
    · rcases List.mem_cons.1 h with h | h
      · exact ⟨[], l, hl, by simp [h]⟩
      · exact absurd h hl

theorem build_eq (realpath : List Byte → Option (List Byte)) (size : Nat) (dir : List Byte) (n : Nat) (hn : n ≠ 0) (file : List Byte)
    (hr : ∀ p q, realpath p = some q → q ≠ []) : build realpath size dir n file = expected realpath dir file size := by
  unfold build expected
  rw [if_neg hn]
  cases h : realpath dir with
  | none => rfl
  | some pre =>
    have hne := hr dir pre h
    have hlen : 0 < pre.length := List.length_pos_iff.2 hne
    simp only []
    by_cases hs : 1 + file.length + pre.length ≥ size
    · rw [if_pos hs, if_pos (by omega)]
    · rw [if_neg hs, if_neg (by omega)]
      have e1 : put size pre = some pre := if_pos (by omega)
      rw [e1]
      simp only []
      rw [if_neg (by omega), List.getLast?_eq_getElem?]
      by_cases hl : pre[pre.length - 1]? = some 47#8
      · rw [if_neg (by simp [hl]), if_pos hl]
        have e2 : put size (pre ++ file) = some (pre ++ file) := if_pos (by simp; omega)
        simp only [e2]
      · rw [if_pos hl, if_neg hl]
        have e2 : put size (pre ++ [47#8]) = some (pre ++ [47#8]) := if_pos (by simp; omega)
        have e3 : put size (pre ++ [47#8] ++ file) = some (pre ++ [47#8] ++ file) := if_pos (by simp; omega)
        simp only [e2, e3]

theorem splits_exists (path : List Byte) (h0 : ¬ Root path) : ∃ dir file, Splits path dir file := by
  by_cases hs : 47#8 ∈ path
  · obtain ⟨dir, file, h1, h2⟩ := exists_last _ _ hs
    have hd : dir ≠ [] := by
      rintro rfl
      exact h0 ⟨file, h1, by simpa using h2⟩
    subst h2
    by_cases hf : file = [] ∨ file = [46#8] ∨ file = [46#8, 46#8]
    · exact ⟨_, _, .directory dir file h1 hf hd⟩
    · exact ⟨_, _, .nominal dir file h1 hf hd⟩
  · exact ⟨_, _, .plain path hs⟩

theorem parts_eq {path dir file : List Byte} (h : Splits path dir file) (h0 : path ≠ []) (hlen : path.length < PATH) :
    ∃ n, n ≠ 0 ∧ parts path = some (dir, n, file) := by
  have hm : min path.length PATH = path.length := Nat.min_eq_left (by omega)
  have hp : 0 < path.length := List.length_pos_iff.2 h0
  unfold parts
  simp only [hm]
  rw [if_neg (by omega), if_neg (by omega)]
  cases h with
  | plain _ hf =>
    have hd : ∀ l, path ≠ 47#8 :: l := by rintro l rfl; exact hf (by simp)
    rw [if_neg (hd _), if_neg (hd _), if_neg (hd _), strrchr_none.2 hf]
    exact ⟨1, by decide, rfl⟩
  | directory d f hf hc hd =>
    have hroot : ∀ l, 47#8 ∉ l → d ++ 47#8 :: f ≠ 47#8 :: l := by
      intro l hl he
      cases d with
      | nil => exact hd rfl
      | cons x d =>
        simp only [List.cons_append, List.cons.injEq] at he
        exact hl (by rw [← he.2]; simp)
    rw [if_neg (hroot _ (by simp)), if_neg (hroot _ (by decide)), if_neg (hroot _ (by decide)), strrchr_append _ _ hf]
    simp only []
    rw [show (d ++ 47#8 :: f).drop (d.length + 1) = f by rw [List.drop_append]; simp]
    refine ⟨(d ++ 47#8 :: f).length, by omega, ?_⟩
    rcases hc with rfl | rfl | rfl
    · rfl
    · rfl
    · rfl
  | nominal d _ hf hc hd =>
    have hroot : ∀ l, 47#8 ∉ l → d ++ 47#8 :: file ≠ 47#8 :: l := by
      intro l hl he
      cases d with
      | nil => exact hd rfl
      | cons x d =>
        simp only [List.cons_append, List.cons.injEq] at he
        exact hl (by rw [← he.2]; simp)
    rw [if_neg (hroot _ (by simp)), if_neg (hroot _ (by decide)), if_neg (hroot _ (by decide)), strrchr_append _ _ hf]
    simp only []
    rw [show (d ++ 47#8 :: file).drop (d.length + 1) = file by rw [List.drop_append]; simp]
    simp only [not_or] at hc
    have hdl : 0 < d.length := List.length_pos_iff.2 hd
    rw [if_neg (by rw [List.length_eq_zero_iff]; exact hc.1), if_neg hc.2.1, if_neg hc.2.2, if_neg (by omega)]
    refine ⟨(d ++ 47#8 :: file).length, by omega, ?_⟩
    rw [show (d ++ 47#8 :: file).take (d.length + 1) = d ++ [47#8] by rw [List.take_append, List.take_of_length_le (by omega)]; simp]

end Diminuto.Canonical
