import Verif.IpcalcSpec

/-!
# Lemmas: the tool that calculates addresses
-/

namespace Diminuto.Ipcalc

theorem swap_number (little : Bool) (v : BitVec 32) : (swap little v).toNat = number little v := by
  have hv := v.isLt
  unfold swap number
  cases little
  · simp only [Bool.false_eq_true, if_false]
    omega
  · simp only [if_true, BitVec.toNat_append, BitVec.extractLsb'_toNat, Nat.shiftRight_eq_div_pow]
    rw [← Nat.shiftLeft_add_eq_or_of_lt (a := v.toNat / 2 ^ 16 % 2 ^ 8) (by omega), ← Nat.shiftLeft_add_eq_or_of_lt (a := v.toNat / 2 ^ 8 % 2 ^ 8) (by rw [Nat.shiftLeft_eq]; omega),
      ← Nat.shiftLeft_add_eq_or_of_lt (a := v.toNat / 2 ^ 0 % 2 ^ 8) (by rw [Nat.shiftLeft_eq, Nat.shiftLeft_eq]; omega)]
    simp only [Nat.shiftLeft_eq]
    omega

theorem swap_bit (v : BitVec 32) (i : Nat) (h : i < 32) : (swap true v).getLsbD i = v.getLsbD (24 - i / 8 * 8 + i % 8) := by
  unfold swap
  rw [if_pos rfl, BitVec.getLsbD_append, BitVec.getLsbD_append, BitVec.getLsbD_append, BitVec.getLsbD_extractLsb', BitVec.getLsbD_extractLsb', BitVec.getLsbD_extractLsb', BitVec.getLsbD_extractLsb']
  by_cases h1 : i < 8
  · rw [if_pos (by omega), if_pos (by omega), if_pos h1, show 24 - i / 8 * 8 + i % 8 = 24 + i by omega]
    simp [h1]
  · by_cases h2 : i < 16
    · rw [if_pos (by omega), if_pos (by omega), if_neg h1, show 24 - i / 8 * 8 + i % 8 = 16 + (i - 8) by omega]
      simp [show i - 8 < 8 by omega]
    · by_cases h3 : i < 24
      · rw [if_pos (by omega), if_neg (by omega), show 24 - i / 8 * 8 + i % 8 = 8 + (i - (8 + 8)) by omega]
        simp [show i - 16 < 8 by omega]
      · rw [if_neg (by omega), show 24 - i / 8 * 8 + i % 8 = 0 + (i - (8 + (8 + 8))) by omega]
        simp [show i - 24 < 8 by omega]

theorem swap_and (little : Bool) (a b : BitVec 32) : swap little (a &&& b) = swap little a &&& swap little b := by
  cases little
  · rfl
  · apply BitVec.eq_of_getLsbD_eq
    intro i hi
    rw [BitVec.getLsbD_and, swap_bit _ i hi, swap_bit _ i hi, swap_bit _ i hi, BitVec.getLsbD_and]

theorem swap_or (little : Bool) (a b : BitVec 32) : swap little (a ||| b) = swap little a ||| swap little b := by
  cases little
  · rfl
  · apply BitVec.eq_of_getLsbD_eq
    intro i hi
    rw [BitVec.getLsbD_or, swap_bit _ i hi, swap_bit _ i hi, swap_bit _ i hi, BitVec.getLsbD_or]

theorem swap_not (little : Bool) (a : BitVec 32) : swap little (~~~a) = ~~~(swap little a) := by
  cases little
  · rfl
  · apply BitVec.eq_of_getLsbD_eq
    intro i hi
    rw [BitVec.getLsbD_not, swap_bit _ i hi, swap_bit _ i hi, BitVec.getLsbD_not]
    simp only [hi, show 24 - i / 8 * 8 + i % 8 < 32 by omega]

theorem swap_swap (little : Bool) (a : BitVec 32) : swap little (swap little a) = a := by
  cases little
  · rfl
  · apply BitVec.eq_of_getLsbD_eq
    intro i hi
    rw [swap_bit _ i hi, swap_bit _ _ (by omega)]
    congr 1
    omega

/-- A mask is ones that are shifted. -/
theorem mask_eq {little : Bool} {bits : Nat} {m : BitVec 32} (h : IsMask little bits m) : swap little m = BitVec.allOnes 32 <<< bits := by
  apply BitVec.eq_of_toNat_eq
  rw [swap_number, h.2, BitVec.toNat_shiftLeft, BitVec.toNat_allOnes, Nat.shiftLeft_eq]
  have h1 : 0 < 2 ^ bits := Nat.pow_pos (by decide)
  have h2 : 2 ^ bits ≤ 2 ^ 32 := Nat.pow_le_pow_right (by decide) h.1
  generalize 2 ^ bits = x at h1 h2 ⊢
  omega

theorem join (a p : BitVec 32) (bits : Nat) : ((a &&& (BitVec.allOnes 32 <<< bits)) ||| (p &&& ~~~(BitVec.allOnes 32 <<< bits))).toNat / 2 ^ bits = a.toNat / 2 ^ bits ∧
    ((a &&& (BitVec.allOnes 32 <<< bits)) ||| (p &&& ~~~(BitVec.allOnes 32 <<< bits))).toNat % 2 ^ bits = p.toNat % 2 ^ bits := by
  constructor
  · apply Nat.eq_of_testBit_eq
    intro i
    rw [Nat.testBit_div_two_pow, Nat.testBit_div_two_pow, BitVec.testBit_toNat, BitVec.testBit_toNat, BitVec.getLsbD_or, BitVec.getLsbD_and, BitVec.getLsbD_and, BitVec.getLsbD_not, BitVec.getLsbD_shiftLeft, BitVec.getLsbD_allOnes]
    by_cases h : i + bits < 32
    · simp [h, show ¬ i + bits < bits by omega, show i < 32 by omega]
    · simp [h, BitVec.getLsbD_of_ge a (i + bits) (by omega)]
  · apply Nat.eq_of_testBit_eq
    intro i
    rw [Nat.testBit_mod_two_pow, Nat.testBit_mod_two_pow, BitVec.testBit_toNat, BitVec.testBit_toNat, BitVec.getLsbD_or, BitVec.getLsbD_and, BitVec.getLsbD_and, BitVec.getLsbD_not, BitVec.getLsbD_shiftLeft, BitVec.getLsbD_allOnes]
    by_cases h : i < bits
    · by_cases h32 : i < 32
      · simp [h, h32]
      · simp [h, BitVec.getLsbD_of_ge p i (by omega)]
    · simp [h]

theorem masked (v : BitVec 32) (bits : Nat) : (v &&& (BitVec.allOnes 32 <<< bits)).toNat = v.toNat / 2 ^ bits * 2 ^ bits := by
  obtain ⟨h1, h2⟩ := join v 0#32 bits
  rw [BitVec.zero_and, BitVec.or_zero] at h1 h2
  have := Nat.div_add_mod (v &&& (BitVec.allOnes 32 <<< bits)).toNat (2 ^ bits)
  rw [h1, h2, show (0#32).toNat = 0 from rfl, Nat.zero_mod] at this
  rw [Nat.mul_comm]
  omega

end Diminuto.Ipcalc
