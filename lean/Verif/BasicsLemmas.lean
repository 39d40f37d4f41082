import Verif.BasicsSpec

/-!
# Lemmas on the small features
-/

namespace Diminuto.Basics
open Pin (ascii)
open Number (strtoll)

theorem bitsOf_length {w : Nat} (array : List (BitVec w)) : (bitsOf array).length = array.length * w := by
  induction array with
  | nil => simp [bitsOf]
  | cons e l ih =>
    simp only [bitsOf, List.flatMap_cons, List.length_append, List.length_map, List.length_range, List.length_cons] at *
    rw [ih, Nat.add_mul]; omega

theorem bitsOf_get {w : Nat} (hw : 0 < w) (array : List (BitVec w)) (b : Nat) : (bitsOf array)[b]? = (array[b / w]?).map fun e => e.getLsbD (b % w) := by
  induction array generalizing b with
  | nil => simp [bitsOf]
  | cons e l ih =>
    have hc : bitsOf (e :: l) = (List.range w).map e.getLsbD ++ bitsOf l := by simp [bitsOf]
    rw [hc]
    by_cases hb : b < w
    · rw [List.getElem?_append_left (by simpa using hb), Nat.div_eq_of_lt hb, Nat.mod_eq_of_lt hb]
      simp [hb]
    · rw [List.getElem?_append_right (by simp; omega), List.length_map, List.length_range, ih]
      have h1 : b / w = (b - w) / w + 1 := by rw [← Nat.add_div_right _ hw]; congr 1; omega
      have h2 : b % w = (b - w) % w := Nat.mod_eq_sub_mod (by omega)
      rw [h1, h2, List.getElem?_cons_succ]

theorem flat_set {w : Nat} (hw : 0 < w) (array : List (BitVec w)) (b : Nat) (e x : BitVec w) (v : Bool) (he : array[b / w]? = some e) (hx : ∀ i, i < w → x.getLsbD i = if i = b % w then v else e.getLsbD i) :
    bitsOf (array.set (b / w) x) = (bitsOf array).set b v := by
  apply List.ext_getElem?
  intro i
  have hl : b / w < array.length := (List.getElem?_eq_some_iff.mp he).1
  have hb : b < (bitsOf array).length := by
    rw [bitsOf_length]
    have h1 := Nat.div_add_mod b w
    have h2 := Nat.mod_lt b hw
    have h3 : (b / w + 1) * w ≤ array.length * w := Nat.mul_le_mul_right w hl
    rw [Nat.add_mul, Nat.one_mul, Nat.mul_comm] at h3
    omega
  rw [bitsOf_get hw, List.getElem?_set, List.getElem?_set, bitsOf_get hw]
  by_cases hi : b / w = i / w
  · rw [if_pos hi, if_pos hl]
    have hm := Nat.mod_lt i hw
    rw [Option.map_some, hx _ hm]
    by_cases hb' : b = i
    · subst hb'; simp [hb]
    · have : i % w ≠ b % w := by
        intro h
        apply hb'
        rw [← Nat.div_add_mod b w, ← Nat.div_add_mod i w, h, hi]
      rw [if_neg this, if_neg hb', ← hi, he]
      rfl
  · rw [if_neg hi]
    have : b ≠ i := by rintro rfl; exact hi rfl
    rw [if_neg this]

theorem before_trans {a b c : List Byte} (h : Before a b) (h' : Before b c) : Before a c := by
  induction h generalizing c with
  | nil => cases h' <;> exact .nil
  | head h =>
    cases h' with
    | head h' => exact .head (by omega)
    | tail => exact .head h
  | tail _ ih =>
    cases h' with
    | head h' => exact .head h'
    | tail h' => exact .tail (ih h')

theorem before_irrefl (a : List Byte) : ¬ Before a a := by
  induction a with
  | nil => intro h; cases h
  | cons x l ih =>
    intro h
    cases h with
    | head h => omega
    | tail h => exact ih h

theorem letters_yes : ∀ c : Byte, either c (ascii "aAcCeEhHtTuUyY") = either (lower c) (ascii "acehtuy") := by decide +kernel
theorem letters_no : ∀ c : Byte, either c (ascii "dDfFiInNlL") = either (lower c) (ascii "dfinl") := by decide +kernel
theorem letters_o : ∀ c : Byte, either c (ascii "oO") = either (lower c) (ascii "o") := by decide +kernel
theorem letters_n : ∀ c : Byte, either c (ascii "nN") = either (lower c) (ascii "n") := by decide +kernel
theorem letters_fp : ∀ c : Byte, either c (ascii "fFpP") = either (lower c) (ascii "fp") := by decide +kernel

/-- What is made of a word in lower case. -/
def judge (w : List Byte) (otherwise : Int) (rest : Int) : Int :=
  match w with
  | [] => otherwise
  | x :: v => if either x (ascii "acehtuy") then 1 else if either x (ascii "dfinl") then 0 else if either x (ascii "o") then
      (match v with | [] => otherwise | y :: _ => if either y (ascii "n") then 1 else if either y (ascii "fp") then 0 else otherwise) else rest

theorem testify_word {s w : List Byte} (h : s.map lower = w) (otherwise : Int) : testify (some s) otherwise = judge w otherwise (testify (some s) otherwise) := by
  subst h
  cases s with
  | nil => rfl
  | cons c t =>
    simp only [testify, judge, letters_yes, letters_no, letters_o, List.map_cons]
    cases t with
    | nil =>
      by_cases h1 : either (lower c) (ascii "acehtuy") = true
      · simp only [h1, if_true]
      · by_cases h2 : either (lower c) (ascii "dfinl") = true
        · simp only [h1, h2, if_true]
        · by_cases h3 : either (lower c) (ascii "o") = true <;> simp only [h1, h2, h3, if_true, if_false, Bool.false_eq_true, List.map_nil]
    | cons d t =>
      simp only [letters_n, letters_fp, List.map_cons]
      by_cases h1 : either (lower c) (ascii "acehtuy") = true
      · simp only [h1, if_true]
      · by_cases h2 : either (lower c) (ascii "dfinl") = true
        · simp only [h1, h2, if_true]
        · by_cases h3 : either (lower c) (ascii "o") = true <;> simp only [h1, h2, h3, if_true, if_false, Bool.false_eq_true]

theorem digit_first : ∀ c : Byte, either c (ascii "0123456789") = true → either c (ascii "aAcCeEhHtTuUyY") = false ∧ either c (ascii "dDfFiInNlL") = false ∧ either c (ascii "oO") = false := by decide +kernel

theorem testify_digits (c : Byte) (t : List Byte) (o : Int) (h : either c (ascii "0123456789") = true) :
    testify (some (c :: t)) o = if (strtoll (c :: t)).2.1 = [] then (if BitVec.ofInt 32 (strtoll (c :: t)).1 = 0#32 then 0 else 1) else o := by
  obtain ⟨h1, h2, h3⟩ := digit_first c h
  simp [testify, h1, h2, h3, h]

end Diminuto.Basics
