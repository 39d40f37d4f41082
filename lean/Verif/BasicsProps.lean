import Verif.BasicsLemmas
import Verif.LogLemmas

/-!
# Bit arrays, swapping, absolute values, comparators, and testimonies
-/

namespace Diminuto.Basics
open Pin (ascii)
open Number (strtoll Reads)

/-! ## Bits -/

/-- C106.  Getting a bit of an array of an unsigned type gives one or zero, for the bits of the array and no others. -/
theorem bits_get {w : Nat} (hw : 0 < w) (array : List (BitVec w)) (b : Nat) : get w b array = ((bitsOf array)[b]?).map fun x => if x then 1#w else 0#w := by
  rw [bitsOf_get hw, Option.map_map]
  unfold get index
  congr 1
  funext e
  have hb := Nat.mod_lt b hw
  apply BitVec.eq_of_getLsbD_eq
  intro i hi
  simp only [or, offset, Function.comp]
  rw [BitVec.getLsbD_ushiftRight, BitVec.getLsbD_and, BitVec.getLsbD_shiftLeft]
  by_cases he : e.getLsbD (b % w) = true
  · rw [if_pos he, BitVec.getLsbD_one]
    by_cases h0 : i = 0
    · subst h0; simp [hb, he, hw]
    · simp [BitVec.getLsbD_one, h0]
  · rw [if_neg he]
    by_cases h0 : i = 0
    · subst h0; simp [he]
    · simp [BitVec.getLsbD_one, h0]

/-- C106.  Setting a bit changes this one, and no other. -/
theorem bits_set {w : Nat} (hw : 0 < w) (array : List (BitVec w)) (b : Nat) :
    (b < (bitsOf array).length → ∃ a, set w b array = some a ∧ a.length = array.length ∧ bitsOf a = (bitsOf array).set b true) ∧ ((bitsOf array).length ≤ b → set w b array = none) := by
  have key := bitsOf_get hw array b
  refine ⟨fun h => ?_, fun h => ?_⟩
  · rw [List.getElem?_eq_getElem h] at key
    obtain ⟨e, he, -⟩ := Option.map_eq_some_iff.mp key.symm
    have hs : set w b array = some (array.set (b / w) (e ||| or w b)) := by simp [set, index, he]
    refine ⟨_, hs, by simp, flat_set hw array b e _ true he ?_⟩
    intro i hi
    rw [BitVec.getLsbD_or, or, offset, BitVec.getLsbD_shiftLeft, BitVec.getLsbD_one]
    by_cases h2 : i = b % w
    · subst h2; simp [hi]; omega
    · rw [if_neg h2]
      by_cases h3 : i < b % w
      · simp [h3]
      · have : ¬ i - b % w = 0 := by omega
        simp [this]
  · rw [List.getElem?_eq_none h] at key
    have : array[b / w]? = none := by
      cases hh : array[b / w]? with
      | none => rfl
      | some e => rw [hh] at key; cases key
    simp [set, index, this]

/-- C106.  Clearing a bit changes this one, and no other. -/
theorem bits_clear {w : Nat} (hw : 0 < w) (array : List (BitVec w)) (b : Nat) :
    (b < (bitsOf array).length → ∃ a, clear w b array = some a ∧ a.length = array.length ∧ bitsOf a = (bitsOf array).set b false) ∧ ((bitsOf array).length ≤ b → clear w b array = none) := by
  have key := bitsOf_get hw array b
  refine ⟨fun h => ?_, fun h => ?_⟩
  · rw [List.getElem?_eq_getElem h] at key
    obtain ⟨e, he, -⟩ := Option.map_eq_some_iff.mp key.symm
    have hs : clear w b array = some (array.set (b / w) (e &&& and w b)) := by simp [clear, index, he]
    refine ⟨_, hs, by simp, flat_set hw array b e _ false he ?_⟩
    intro i hi
    rw [BitVec.getLsbD_and, and, offset, BitVec.getLsbD_not, BitVec.getLsbD_shiftLeft, BitVec.getLsbD_one]
    by_cases h2 : i = b % w
    · subst h2; simp [hi]; omega
    · rw [if_neg h2]
      by_cases h3 : i < b % w
      · simp [h3, hi]
      · have : ¬ i - b % w = 0 := by omega
        simp [this, hi]
  · rw [List.getElem?_eq_none h] at key
    have : array[b / w]? = none := by
      cases hh : array[b / w]? with
      | none => rfl
      | some e => rw [hh] at key; cases key
    simp [clear, index, this]

/-- C106.  An array with the computed number of elements has room for all the bits, and one with an element less has not.  (The number of bits that is asked for is not near 2^64.) -/
theorem bits_count (w n : Nat) (hw : 0 < w) (h : n + w ≤ 2 ^ 64) : n ≤ count w n * w ∧ (count w n = 0 ∨ (count w n - 1) * w < n) := by
  have e : count w n = (n + w - 1) / w := by
    unfold count
    by_cases hw' : w < 2 ^ 64
    · rw [BitVec.toNat_udiv, BitVec.toNat_sub, BitVec.toNat_add, BitVec.toNat_ofNat, BitVec.toNat_ofNat, BitVec.toNat_ofNat, Nat.mod_eq_of_lt hw']
      congr 1
      omega
    · have : n = 0 := by omega
      have : w = 2 ^ 64 := by omega
      subst n w
      decide
  have h1 := Nat.div_add_mod (n + w - 1) w
  have h2 := Nat.mod_lt (n + w - 1) hw
  rw [← e, Nat.mul_comm] at h1
  refine ⟨by omega, ?_⟩
  rcases Nat.eq_zero_or_pos (count w n) with h0 | h0
  · exact Or.inl h0
  · refine Or.inr ?_
    have : (count w n - 1) * w + w = count w n * w := by rw [← Nat.succ_mul]; congr 1; omega
    omega

/-- C106, refuted for signed types.  "Yielding a 0 or a 1": the most significant bit of an element yields -1. -/
theorem bits_get_signed_counterexample (w : Nat) (hw : 1 < w) (e : BitVec w) (he : e.getLsbD (w - 1) = true) : getSigned w (w - 1) [e] = some (BitVec.allOnes w) := by
  have h1 : (w - 1) / w = 0 := Nat.div_eq_of_lt (by omega)
  have h2 : (w - 1) % w = w - 1 := Nat.mod_eq_of_lt (by omega)
  simp only [getSigned, index, h1, offset, or, h2, List.getElem?_cons_zero, Option.map_some, Option.some.injEq]
  have hm : (e &&& 1#w <<< (w - 1)).msb = true := by
    rw [BitVec.msb_eq_getLsbD_last, BitVec.getLsbD_and, he, BitVec.getLsbD_shiftLeft]
    simp; omega
  apply BitVec.eq_of_getLsbD_eq
  intro i hi
  rw [BitVec.getLsbD_sshiftRight, hm, BitVec.getLsbD_and, BitVec.getLsbD_shiftLeft, BitVec.getLsbD_allOnes]
  by_cases h0 : i = 0
  · subst h0
    have h3 : 0 < w := hi
    have h4 : w - 1 < w := by omega
    simp only [Nat.add_zero, he, h4, Nat.lt_irrefl, decide_true, decide_false, Bool.not_false, Bool.and_true, if_true, Nat.sub_self, BitVec.getLsbD_one, h3]
    simp; omega
  · have : ¬ (w - 1 + i < w) := by omega
    simp [this, hi]

/-- Three bytes of a bit array. -/
example : set 8 9 [0#8, 4#8] = some [0#8, 6#8] ∧ clear 8 10 [0#8, 4#8] = some [0#8, 0#8] ∧ get 8 10 [0#8, 4#8] = some 1#8 ∧ count 8 17 = 3 ∧ set 8 16 [0#8, 4#8] = none ∧ getSigned 8 7 [128#8] = some 255#8 := by
  decide

/-! ## Swap -/

/-- C107.  Two variables are swapped, and no other is changed. -/
theorem swap_swaps {w : Nat} (a b : Nat) (h : a ≠ b) (m : Nat → BitVec w) : swap a b m a = m b ∧ swap a b m b = m a ∧ ∀ x, x ≠ a → x ≠ b → swap a b m x = m x := by
  have c : ∀ x y : BitVec w, x ^^^ y ^^^ (y ^^^ (x ^^^ y)) = y := by
    intro x y
    apply BitVec.eq_of_getLsbD_eq
    intro i _
    simp only [BitVec.getLsbD_xor]
    cases x.getLsbD i <;> cases y.getLsbD i <;> rfl
  have d : ∀ x y : BitVec w, y ^^^ (x ^^^ y) = x := by
    intro x y
    apply BitVec.eq_of_getLsbD_eq
    intro i _
    simp only [BitVec.getLsbD_xor]
    cases x.getLsbD i <;> cases y.getLsbD i <;> rfl
  refine ⟨?_, ?_, ?_⟩
  · simp only [swap, if_true, if_neg h, if_neg (Ne.symm h)]
    exact c _ _
  · simp only [swap, if_true, if_neg h, if_neg (Ne.symm h)]
    exact d _ _
  · intro x ha hb
    simp [swap, ha, hb]

/-- Two variables. -/
example : swap 0 1 (fun x => BitVec.ofNat 8 (x + 5)) 0 = 6#8 := by decide

/-- C107, refuted.  A variable is not left as it is if it is swapped with itself: it becomes zero. -/
theorem swap_counterexample {w : Nat} (a : Nat) (m : Nat → BitVec w) : swap a a m a = 0#w := by
  simp [swap]

/-! ## Absolute values -/

/-- C107.  The absolute value is that, for every value but the least. -/
theorem absolute_partial (w : Nat) (v : BitVec w) (h : v ≠ BitVec.intMin w) : ∃ a, absolute w v = some a ∧ a.toInt = v.toInt.natAbs := by
  unfold absolute
  split
  · rename_i hn
    rw [if_neg (by simp [h])]
    exact ⟨_, rfl, by rw [BitVec.toInt_neg_of_ne_intMin h]; omega⟩
  · exact ⟨_, rfl, by omega⟩

/-- Minus five. -/
example : absolute 32 (-5#32) = some 5#32 := by decide

/-- C107, refuted.  The absolute value of the least value is negative, or undefined. -/
theorem absolute_counterexample : (absolute 8 (-128#8)).map BitVec.toInt = some (-128) ∧ (absolute 16 (-32768#16)).map BitVec.toInt = some (-32768) ∧ absolute 32 (-2147483648#32) = none ∧
    absolute 64 (-9223372036854775808#64) = none := by decide

/-! ## Minimum and maximum of a type -/

/-- C107.  For unsigned types, and for the signed ones with GNU C or that are narrower than `int`, these are the least and the greatest values. -/
theorem minmax_unsigned (gnu : Bool) (w : Nat) : ∃ a b, minimumof gnu false w = some a ∧ maximumof gnu false w = some b ∧ ∀ v : BitVec w, a.toNat ≤ v.toNat ∧ v.toNat ≤ b.toNat := by
  refine ⟨0#w, ~~~(0#w), rfl, rfl, fun v => ⟨by simp, ?_⟩⟩
  rw [BitVec.toNat_not]
  have := v.isLt
  simp; omega

/-- C107. -/
theorem minmax_signed_partial (gnu : Bool) (w : Nat) (hw : 0 < w) (h : gnu = true ∨ w < 32) :
    ∃ a b, minimumof gnu true w = some a ∧ maximumof gnu true w = some b ∧ ∀ v : BitVec w, a.toInt ≤ v.toInt ∧ v.toInt ≤ b.toInt := by
  have ht : top gnu true w = some (1#w <<< (w - 1)) := by
    unfold top
    rcases h with h | h
    · simp [h]
    · simp [show ¬ 32 ≤ w by omega]
  have e : 1#w <<< (w - 1) = BitVec.intMin w := by
    apply BitVec.eq_of_getLsbD_eq
    intro i hi
    rw [BitVec.getLsbD_intMin, BitVec.getLsbD_shiftLeft, BitVec.getLsbD_one]
    by_cases h0 : i = w - 1
    · subst h0; simp [hi]; omega
    · have : i < w - 1 := by omega
      simp [this]; omega
  refine ⟨1#w <<< (w - 1), ~~~(1#w <<< (w - 1)), by simp [minimumof, ht], by simp [maximumof, ht], fun v => ?_⟩
  rw [e]
  have h1 := BitVec.le_toInt v
  have h2 := BitVec.toInt_lt (x := v)
  have e1 : (BitVec.intMin w).toInt = -2 ^ (w - 1) := by
    rw [BitVec.toInt_intMin_of_pos hw]
  have e2 : (~~~(BitVec.intMin w)).toInt = 2 ^ (w - 1) - 1 := by
    have h3 : ~~~(BitVec.intMin w) = BitVec.intMax w := by
      apply BitVec.eq_of_getLsbD_eq
      intro i hi
      rw [BitVec.getLsbD_not, BitVec.getLsbD_intMin, BitVec.getLsbD_intMax]
      by_cases h0 : i + 1 = w
      · simp [h0]
      · simp [hi, h0]; omega
    rw [h3, BitVec.toInt_intMax]
  rw [e1, e2]
  omega

/-- C107, refuted.  For `int` and wider types the expressions are undefined according to the standard. -/
theorem minmax_counterexample : minimumof false true 32 = none ∧ maximumof false true 32 = none ∧ minimumof false true 64 = none ∧ maximumof false true 64 = none := by decide

/-- With GNU C. -/
example : (minimumof true true 32).map BitVec.toInt = some (-2147483648) ∧ (maximumof true true 32).map BitVec.toInt = some 2147483647 ∧ (maximumof false true 16).map BitVec.toInt = some 32767 := by decide

/-! ## Comparators -/

/-- C108.  Strings are compared in lexicographic order, that of their bytes, and it is a total order. -/
theorem compare_strings (s t : List Byte) (hs : CString s) (ht : CString t) :
    (compareStrings s t < 0 ↔ Before s t) ∧ (compareStrings s t = 0 ↔ s = t) ∧ (0 < compareStrings s t ↔ Before t s) := by
  induction s generalizing t with
  | nil =>
    cases t with
    | nil =>
      refine ⟨⟨by simp [compareStrings], fun h => by cases h⟩, by simp [compareStrings], ⟨by simp [compareStrings], fun h => by cases h⟩⟩
    | cons b t =>
      have : 0 < b.toNat := by
        rcases Nat.eq_zero_or_pos b.toNat with h | h
        · exact absurd (by rw [show b = 0#8 from BitVec.eq_of_toNat_eq h]; simp) ht
        · exact h
      refine ⟨⟨fun _ => .nil, fun _ => by simp only [compareStrings]; omega⟩, ⟨fun h => by simp only [compareStrings] at h; omega, by simp⟩, ⟨fun h => by simp only [compareStrings] at h; omega, fun h => by cases h⟩⟩
  | cons a s ih =>
    cases t with
    | nil =>
      have : 0 < a.toNat := by
        rcases Nat.eq_zero_or_pos a.toNat with h | h
        · exact absurd (by rw [show a = 0#8 from BitVec.eq_of_toNat_eq h]; simp) hs
        · exact h
      refine ⟨⟨fun h => by simp only [compareStrings] at h; omega, fun h => by cases h⟩, ⟨fun h => by simp only [compareStrings] at h; omega, by simp⟩, ⟨fun _ => .nil, fun _ => by simp only [compareStrings]; omega⟩⟩
    | cons b t =>
      simp only [CString, List.mem_cons, not_or] at hs ht
      by_cases hab : a = b
      · subst hab
        obtain ⟨h1, h2, h3⟩ := ih t hs.2 ht.2
        have e : compareStrings (a :: s) (a :: t) = compareStrings s t := by simp [compareStrings]
        rw [e]
        refine ⟨⟨fun h => .tail (h1.mp h), fun h => ?_⟩, ⟨fun h => by rw [h2.mp h], fun h => h2.mpr (List.cons.inj h).2⟩, ⟨fun h => .tail (h3.mp h), fun h => ?_⟩⟩
        · cases h with
          | head h => omega
          | tail h => exact h1.mpr h
        · cases h with
          | head h => omega
          | tail h => exact h3.mpr h
      · have e : compareStrings (a :: s) (b :: t) = (a.toNat : Int) - b.toNat := by simp [compareStrings, hab]
        have hne : a.toNat ≠ b.toNat := fun h => hab (BitVec.eq_of_toNat_eq h)
        rw [e]
        refine ⟨⟨fun h => .head (by omega), fun h => ?_⟩, ⟨fun h => by omega, fun h => absurd (List.cons.inj h).1 hab⟩, ⟨fun h => .head (by omega), fun h => ?_⟩⟩
        · cases h with
          | head h => omega
          | tail h => exact absurd rfl hab
        · cases h with
          | head h => omega
          | tail h => exact absurd rfl hab

/-- C108.  The order of strings is what the Tree and Store features need of a comparator. -/
theorem compare_strings_order (s t u : List Byte) (hs : CString s) (ht : CString t) (hu : CString u) :
    (compareStrings s t < 0 → compareStrings t u < 0 → compareStrings s u < 0) ∧ (compareStrings s t < 0 ↔ 0 < compareStrings t s) ∧ (compareStrings s t = 0 ↔ compareStrings t s = 0) := by
  obtain ⟨a1, a2, a3⟩ := compare_strings s t hs ht
  obtain ⟨b1, b2, b3⟩ := compare_strings t s ht hs
  refine ⟨fun h h' => ?_, by rw [a1, b3], by rw [a2, b2]; exact eq_comm⟩
  exact (compare_strings s u hs hu).1.mpr (before_trans (a1.mp h) ((compare_strings t u ht hu).1.mp h'))

/-- Two strings. -/
example : compareStrings (ascii "alpha") (ascii "alphabet") < 0 ∧ 0 < compareStrings (ascii "beta") (ascii "alphabet") := by decide

/-- C108.  Claimed: pointers are compared by their values.  Shown here for pointers that are less than 2 GB apart. -/
theorem compare_pointers_partial (a b : BitVec 64) (h : -(2 ^ 31) ≤ a.toInt - b.toInt) (h' : a.toInt - b.toInt < 2 ^ 31) :
    ∃ r, comparePointers a b = some r ∧ (r < 0 ↔ a.toInt < b.toInt) ∧ (r = 0 ↔ a = b) ∧ (0 < r ↔ b.toInt < a.toInt) := by
  have e : (BitVec.ofInt 32 (a.toInt - b.toInt)).toInt = a.toInt - b.toInt := by
    rw [BitVec.toInt_ofInt]
    exact Int.bmod_eq_of_le (by omega) (by omega)
  refine ⟨a.toInt - b.toInt, ?_, by omega, ⟨fun h => BitVec.eq_of_toInt_eq (by omega), fun h => by subst h; omega⟩, by omega⟩
  rw [comparePointers, if_neg (by omega), e]

/-- Two addresses in an array. -/
example : comparePointers 0x7ffd00001000#64 0x7ffd00001010#64 = some (-16) := by decide

/-- C108, refuted.  Pointers that are 4 GB apart are equal, ones that are 3 GB apart are in the wrong order, and the order has cycles. -/
theorem compare_pointers_counterexample : comparePointers 0x100000000#64 0x200000000#64 = some 0 ∧ (∃ r, comparePointers 0x0#64 0xc0000000#64 = some r ∧ 0 < r) ∧
    (∃ r, comparePointers 0x0#64 0x60000000#64 = some r ∧ r < 0) ∧ ∃ r, comparePointers 0x60000000#64 0xc0000000#64 = some r ∧ r < 0 := by
  refine ⟨by decide, ⟨_, rfl, by decide⟩, ⟨_, rfl, by decide⟩, ⟨_, rfl, by decide⟩⟩

/-! ## Testify -/

/-- C109.  Every one of the words, in upper or lower case or both, is true or false as it should be, whatever is the default. -/
theorem testify_words (s : List Byte) (otherwise : Int) : (s.map lower ∈ yes → testify (some s) otherwise = 1) ∧ (s.map lower ∈ no → testify (some s) otherwise = 0) := by
  constructor
  · intro h
    generalize hw : s.map lower = w at h
    rw [testify_word hw]
    simp only [yes, List.map_cons, List.map_nil, List.mem_cons, List.not_mem_nil, or_false] at h
    rcases h with rfl | rfl | rfl | rfl | rfl | rfl | rfl | rfl | rfl | rfl | rfl <;> rfl
  · intro h
    generalize hw : s.map lower = w at h
    rw [testify_word hw]
    simp only [no, List.map_cons, List.map_nil, List.mem_cons, List.not_mem_nil, or_false] at h
    rcases h with rfl | rfl | rfl | rfl | rfl | rfl | rfl | rfl | rfl | rfl | rfl <;> rfl

/-- C109.  What is missing or is empty is the default, and what is not is true, false, or the default. -/
theorem testify_otherwise (s : Option (List Byte)) : (s = none ∨ s = some [] → ∀ o, testify s o = o) ∧ ((∀ o, testify s o = 1) ∨ (∀ o, testify s o = 0) ∨ ∀ o, testify s o = o) := by
  constructor
  · rintro (rfl | rfl) <;> intro o <;> rfl
  · match s with
    | none => exact Or.inr (Or.inr fun _ => rfl)
    | some [] => exact Or.inr (Or.inr fun _ => rfl)
    | some (c :: t) =>
      simp only [testify]
      by_cases h1 : either c (ascii "aAcCeEhHtTuUyY") = true
      · simp [h1]
      · by_cases h2 : either c (ascii "dDfFiInNlL") = true
        · simp [h1, h2]
        · by_cases h3 : either c (ascii "oO") = true
          · simp only [h1, h2, h3, if_true, if_false, Bool.false_eq_true]
            match t with
            | [] => exact Or.inr (Or.inr fun _ => rfl)
            | d :: t =>
              by_cases h4 : either d (ascii "nN") = true
              · simp [h4]
              · by_cases h5 : either d (ascii "fFpP") = true
                · simp [h4, h5]
                · simp [h4, h5]
          · by_cases h4 : either c (ascii "0123456789") = true
            · simp only [h1, h2, h3, h4, if_true, if_false, Bool.false_eq_true]
              by_cases h5 : (strtoll (c :: t)).2.1 = []
              · by_cases h6 : BitVec.ofInt 32 (strtoll (c :: t)).1 = 0#32 <;> simp [h5, h6]
              · simp [h5]
            · simp [h1, h2, h3, h4]

/-- C109.  Claimed: a number in decimal, octal, or hexadecimal is false if it is zero and true otherwise.  Shown here for numbers of 32 bits. -/
theorem testify_number_partial (c : Byte) (t : List Byte) (o : Int) (hc : 48 ≤ c.toNat ∧ c.toNat ≤ 57) (n : Nat) (h : Reads (c :: t) false n []) (hn : n < 2 ^ 32) :
    testify (some (c :: t)) o = if n = 0 then 0 else 1 := by
  have hd : either c (ascii "0123456789") = true := by
    have : ∀ c : Byte, 48 ≤ c.toNat ∧ c.toNat ≤ 57 → either c (ascii "0123456789") = true := by decide +kernel
    exact this c hc
  rw [testify_digits c t o hd, Log.strtoll_reads h (by omega)]
  simp only [if_true]
  by_cases h0 : n = 0
  · simp [h0]
  · have : BitVec.ofInt 32 (n : Int) ≠ 0#32 := by
      intro h
      have := congrArg BitVec.toNat h
      rw [BitVec.toNat_ofInt] at this
      simp at this
      omega
    rw [if_neg h0, if_neg this]

/-- C109.  A number that something follows is the default. -/
theorem testify_garbage (c : Byte) (t : List Byte) (o : Int) (hc : 48 ≤ c.toNat ∧ c.toNat ≤ 57) (n : Nat) (r : List Byte) (h : Reads (c :: t) false n r) (hr : r ≠ []) : testify (some (c :: t)) o = o := by
  have hd : either c (ascii "0123456789") = true := by
    have : ∀ c : Byte, 48 ≤ c.toNat ∧ c.toNat ≤ 57 → either c (ascii "0123456789") = true := by decide +kernel
    exact this c hc
  have : (strtoll (c :: t)).2.1 = r := by
    have := (Number.scan_iff (c :: t) false n r).mpr h
    simp only [strtoll, this]
    simp only [Bool.false_eq_true, if_false]
    split <;> rfl
  rw [testify_digits c t o hd, this, if_neg hr]

/-- C109, refuted.  A number of which the last 32 bits are zero is false. -/
theorem testify_number_counterexample : Reads (ascii "4294967296") false 4294967296 [] ∧ testify (some (ascii "4294967296")) 1 = 0 := by
  refine ⟨(Number.scan_iff _ _ _ _).mp (by decide +kernel), by decide +kernel⟩

/-- Several testimonies. -/
example : testify (some (ascii "Yes")) 5 = 1 ∧ testify (some (ascii "OFF")) 5 = 0 ∧ testify (some (ascii "0x10")) 5 = 1 ∧ testify (some (ascii "00")) 5 = 0 ∧ testify (some (ascii "maybe")) 5 = 5 ∧
    testify (some (ascii "1.0")) 5 = 5 := by decide +kernel

end Diminuto.Basics
