import Verif.AdcSpec
import Verif.LuxLemmas

/-! # Lemmas about the driver of an analog to digital converter -/

namespace Diminuto.Adc

variable {rnd : Rat → Rat}

theorem gain_eq (config : BitVec 16) : config &&& 0x0e00#16 = (gain config).setWidth 16 <<< 9 := by
  unfold gain
  ext i hi
  have h : i = 0 ∨ i = 1 ∨ i = 2 ∨ i = 3 ∨ i = 4 ∨ i = 5 ∨ i = 6 ∨ i = 7 ∨ i = 8 ∨ i = 9 ∨ i = 10 ∨ i = 11 ∨ i = 12 ∨ i = 13 ∨ i = 14 ∨ i = 15 := by omega
  rcases h with rfl | rfl | rfl | rfl | rfl | rfl | rfl | rfl | rfl | rfl | rfl | rfl | rfl | rfl | rfl | rfl <;> simp

theorem pga_eq (config : BitVec 16) : pga config = fullScale (gain config) := by
  unfold pga
  rw [gain_eq]
  generalize gain config = g
  have h : g = 0#3 ∨ g = 1#3 ∨ g = 2#3 ∨ g = 3#3 ∨ g = 4#3 ∨ g = 5#3 ∨ g = 6#3 ∨ g = 7#3 := by
    have := g.isLt
    simp only [← BitVec.toNat_inj, BitVec.toNat_ofNat]
    omega
  rcases h with rfl | rfl | rfl | rfl | rfl | rfl | rfl | rfl <;> rfl

theorem fullScale_bounds (g : BitVec 3) : 256 / 1000 ≤ fullScale g ∧ fullScale g ≤ 6144 / 1000 := by
  have h : g = 0#3 ∨ g = 1#3 ∨ g = 2#3 ∨ g = 3#3 ∨ g = 4#3 ∨ g = 5#3 ∨ g = 6#3 ∨ g = 7#3 := by
    have := g.isLt
    simp only [← BitVec.toNat_inj, BitVec.toNat_ofNat]
    omega
  rcases h with rfl | rfl | rfl | rfl | rfl | rfl | rfl | rfl <;> simp [fullScale] <;> norm_num

/-- The voltage for a raw value. -/
def volts (rnd : Rat → Rat) (n p : Rat) : Rat := rnd (rnd (n * rnd p) / 32767)

theorem volts_pos (h : Rounding rnd) (n p : Rat) (hn : 0 ≤ n) (hp : 0 ≤ p) : n * p / 32767 - n * p / 32767 / 2 ^ 50 ≤ volts rnd n p ∧ volts rnd n p ≤ n * p / 32767 + n * p / 32767 / 2 ^ 50 := by
  have c := Lux.prod_close h.toRounding p n hp hn
  rw [mul_comm (rnd p) n, mul_comm p n] at c
  have hz : 0 ≤ rnd (n * rnd p) := Lux.rnd_nonneg h.toRounding (mul_nonneg hn (Lux.rnd_nonneg h.toRounding hp))
  have d := h.near (rnd (n * rnd p) / 32767) (by positivity)
  have hx : 0 ≤ n * p := mul_nonneg hn hp
  unfold volts
  generalize rnd (n * rnd p) = u at *
  generalize n * p = x at *
  norm_num at c d ⊢
  constructor <;> linarith [c.1, c.2, d.1, d.2]

theorem volts_neg (h : Rounding rnd) (n p : Rat) : volts rnd (-n) p = -volts rnd n p := by
  unfold volts
  rw [neg_mul, h.odd, neg_div, h.odd]

theorem volts_abs (h : Rounding rnd) (n p : Rat) (hp : 0 ≤ p) : |volts rnd n p - n * p / 32767| ≤ |n * p / 32767| / 2 ^ 50 := by
  rcases le_total 0 n with hn | hn
  · have c := volts_pos h n p hn hp
    have hx : 0 ≤ n * p / 32767 := by positivity
    rw [abs_of_nonneg hx, abs_le]
    constructor <;> linarith [c.1, c.2]
  · have c := volts_pos h (-n) p (by linarith) hp
    have hx : 0 ≤ -n * p / 32767 := by
      have : 0 ≤ -n := by linarith
      positivity
    rw [volts_neg h] at c
    have e : -n * p / 32767 = -(n * p / 32767) := by ring
    rw [e] at c hx
    rw [abs_of_nonpos (show n * p / 32767 ≤ 0 by linarith), abs_le]
    constructor <;> linarith [c.1, c.2]

theorem rawtovolts_eq (h : Rounding rnd) (config raw : BitVec 16) (buffer : Rat) : rawtovolts rnd config raw buffer = (0, volts rnd raw.toInt (fullScale (gain config))) := by
  unfold rawtovolts
  rw [pga_eq]
  have b := fullScale_bounds (gain config)
  have c := h.near (fullScale (gain config)) (by linarith [b.1])
  rw [if_pos]
  · rfl
  · norm_num at c b
    show 0 < rnd _
    linarith [c.1, b.1]

theorem dtoh_load (little : Bool) (m0 m1 : Byte) : dtoh little (load little m0 m1) = m0 ++ m1 := by
  cases little
  · rfl
  · have h0 := m0.isLt
    have h1 := m1.isLt
    unfold dtoh load
    simp only [if_true]
    congr 1
    · apply BitVec.eq_of_toNat_eq
      simp only [BitVec.extractLsb'_toNat, BitVec.toNat_append, Nat.shiftRight_zero]
      rw [← Nat.shiftLeft_add_eq_or_of_lt h0, Nat.shiftLeft_eq]
      omega
    · apply BitVec.eq_of_toNat_eq
      simp only [BitVec.extractLsb'_toNat, BitVec.toNat_append]
      rw [← Nat.shiftLeft_add_eq_or_of_lt h0, Nat.shiftLeft_eq, Nat.shiftRight_eq_div_pow]
      omega

theorem bytes_append (x : BitVec 16) : (x.extractLsb' 8 8 : Byte) ++ (x.extractLsb' 0 8 : Byte) = x := by
  have h := x.isLt
  apply BitVec.eq_of_toNat_eq
  have h0 : (x.extractLsb' 0 8).toNat < 2 ^ 8 := (x.extractLsb' 0 8).isLt
  rw [BitVec.toNat_append, ← Nat.shiftLeft_add_eq_or_of_lt h0, Nat.shiftLeft_eq]
  simp only [BitVec.extractLsb'_toNat, Nat.shiftRight_zero, Nat.shiftRight_eq_div_pow]
  omega

theorem message_bytes (x : BitVec 16) : (((x >>> 8).setWidth 8 : Byte) ++ ((x &&& 0xff#16).setWidth 8 : Byte)) = x := by
  have h := x.isLt
  apply BitVec.eq_of_toNat_eq
  have h0 : ((x &&& 0xff#16).setWidth 8 : Byte).toNat < 2 ^ 8 := ((x &&& 0xff#16).setWidth 8 : Byte).isLt
  rw [BitVec.toNat_append, ← Nat.shiftLeft_add_eq_or_of_lt h0, Nat.shiftLeft_eq]
  simp only [BitVec.toNat_setWidth, BitVec.toNat_ushiftRight, BitVec.toNat_and, BitVec.toNat_ofNat, Nat.shiftRight_eq_div_pow]
  have e : x.toNat &&& 255 % 2 ^ 16 = x.toNat % 2 ^ 8 := Nat.and_two_pow_sub_one_eq_mod x.toNat 8
  rw [e]
  omega

theorem message_eq (reg : BitVec 8) (x : BitVec 16) : message reg x = [reg, x.extractLsb' 8 8, x.extractLsb' 0 8] := by
  have e0 : ((x >>> 8).setWidth 8 : Byte) = x.extractLsb' 8 8 := by
    apply BitVec.eq_of_toNat_eq
    simp only [BitVec.extractLsb'_toNat, BitVec.toNat_setWidth, BitVec.toNat_ushiftRight]
  have e1 : ((x &&& 0xff#16).setWidth 8 : Byte) = x.extractLsb' 0 8 := by
    apply BitVec.eq_of_toNat_eq
    simp only [BitVec.extractLsb'_toNat, BitVec.toNat_setWidth, BitVec.toNat_and, BitVec.toNat_ofNat, Nat.shiftRight_zero]
    have e : x.toNat &&& 255 % 2 ^ 16 = x.toNat % 2 ^ 8 := Nat.and_two_pow_sub_one_eq_mod x.toNat 8
    rw [e]
    omega
  unfold message
  rw [e0, e1]

end Diminuto.Adc
