import Verif.FlickerLemmas
import Verif.FlickerSpec

/-! # Properties of the score of the cycles of a modulator -/

namespace Diminuto.Flicker

/-- The rounding of the model is that of IEEE 754: a significand of 53 bits (or the next power of two), and no more than half of the last bit between the number and what is rounded. -/
theorem flicker_rounding (n d : Nat) (hn : 0 < n) (hd : 0 < d) (h : n ≤ 2 ^ 20 * d) :
    (round n d).m ≤ 2 ^ 53 ∧ 2 ^ 52 ≤ (round n d).m ∧ ((round n d).val - n / d).num.natAbs * 2 ^ ((round n d).k + 1) ≤ ((round n d).val - n / d).den := by
  have hk : Nat.log2 n < 53 + Nat.log2 d := by
    have n1 : 2 ^ Nat.log2 n ≤ n := Nat.log2_self_le (by omega)
    have d2 : d < 2 ^ (Nat.log2 d + 1) := Nat.lt_log2_self
    have : 2 ^ Nat.log2 n < 2 ^ (20 + (Nat.log2 d + 1)) := by
      rw [Nat.pow_add 2 20]
      omega
    have := (Nat.pow_lt_pow_iff_right (by decide : 1 < 2)).1 this
    omega
  obtain ⟨h1, h2, -, h4, h5⟩ := round_half n d hn hd hk
  refine ⟨h5, h4, ?_⟩
  generalize round n d = x at *
  have pd : (0 : ℚ) < d := by exact_mod_cast hd
  have p : (0 : ℚ) < 2 ^ x.k := by positivity
  have h1' : 2 * ((x.m : ℚ) * d) ≤ 2 * (n * 2 ^ x.k) + d := by exact_mod_cast h1
  have h2' : 2 * ((n : ℚ) * 2 ^ x.k) ≤ 2 * (x.m * d) + d := by exact_mod_cast h2
  have e : x.val - n / d = (x.m * d - n * 2 ^ x.k) / (d * 2 ^ x.k) := by
    unfold Double.val
    field_simp
  have key : |x.val - n / d| * 2 ^ (x.k + 1) ≤ 1 := by
    rw [e, abs_div, abs_of_pos (by positivity : (0 : ℚ) < d * 2 ^ x.k), pow_succ, div_mul_eq_mul_div, div_le_one (by positivity)]
    have : |(x.m : ℚ) * d - n * 2 ^ x.k| ≤ d / 2 := abs_le.2 ⟨by linarith, by linarith⟩
    have := mul_le_mul_of_nonneg_right this (by positivity : (0 : ℚ) ≤ 2 ^ x.k * 2)
    linarith
  generalize x.val - n / d = y at *
  have hy : |y| = (y.num.natAbs : ℚ) / y.den := by
    conv_lhs => rw [← Rat.num_div_den y]
    rw [abs_div, abs_of_pos (by exact_mod_cast y.den_pos : (0 : ℚ) < y.den)]
    congr 1
    rw [Nat.cast_natAbs, Int.cast_abs]
  rw [hy, div_mul_eq_mul_div, div_le_one (by exact_mod_cast y.den_pos)] at key
  exact_mod_cast key

example : round 1 3 = ⟨6004799503160661, 54⟩ ∧ round 51 255 = ⟨7205759403792794, 55⟩ := by decide +kernel

/-- If the number is half between two significands, the even one is taken. -/
theorem flicker_ties (n d : Nat) (hn : 0 < n) (hd : 0 < d)
    (h : 2 * ((round n d).m * d) = 2 * (n * 2 ^ (round n d).k) + d ∨ 2 * ((round n d).m * d) + d = 2 * (n * 2 ^ (round n d).k)) : (round n d).m % 2 = 0 := by
  have key := Nat.div_add_mod (n * 2 ^ scale n d) d
  have hr := Nat.mod_lt (n * 2 ^ scale n d) hd
  unfold round at h ⊢
  rw [if_neg (by omega)] at h ⊢
  simp only [] at h ⊢
  by_cases c : 2 * (n * 2 ^ scale n d % d) > d ∨ (2 * (n * 2 ^ scale n d % d) = d ∧ n * 2 ^ scale n d / d % 2 = 1)
  · rw [if_pos c] at h ⊢
    simp only [] at h ⊢
    generalize n * 2 ^ scale n d = N at *
    generalize N / d = q at *
    generalize N % d = r at *
    have e : (q + 1) * d = d * q + d := by ring
    rw [e] at h
    generalize d * q = x at *
    omega
  · rw [if_neg c] at h ⊢
    simp only [] at h ⊢
    generalize n * 2 ^ scale n d = N at *
    generalize N / d = q at *
    generalize N % d = r at *
    have e : q * d = d * q := by ring
    rw [e] at h
    generalize d * q = x at *
    omega

/-- One and 2^-53 is half between two significands. -/
example : 2 * ((round (2 ^ 53 + 1) (2 ^ 53)).m * 2 ^ 53) + 2 ^ 53 = 2 * ((2 ^ 53 + 1) * 2 ^ (round (2 ^ 53 + 1) (2 ^ 53)).k) := by decide +kernel

/-- The score is the percentage of the greater count, without its fraction, whatever the counts: the rounding of the four operations never shows, not even where the percentage is
a whole number. -/
theorem flicker_exact (on off : BitVec 8) (h1 : on ≠ 0) (h2 : off ≠ 0) : Percent (flicker on off) (percentage on.toNat off.toNat) := by
  rw [flicker_eq on off h1 h2]
  have e : percentage on.toNat off.toNat = ((100 * max on.toNat off.toNat : Nat) : ℚ) / 255 := by
    unfold percentage
    split
    · rename_i h
      rw [Nat.max_eq_right h]
      push_cast
      ring
    · rename_i h
      rw [Nat.max_eq_left (by omega)]
      push_cast
      ring
  rw [e]
  generalize 100 * max on.toNat off.toNat = n
  have a : n / 255 * 255 ≤ n := by omega
  have b : n < (n / 255 + 1) * 255 := by omega
  have a' : ((n / 255 : Nat) : ℚ) * 255 ≤ n := by exact_mod_cast a
  have b' : (n : ℚ) < (((n / 255 : Nat) : ℚ) + 1) * 255 := by exact_mod_cast b
  constructor
  · rw [le_div_iff₀ (by norm_num)]
    exact a'
  · rw [div_lt_iff₀ (by norm_num)]
    exact b'

example : flicker 204 51 = 80 ∧ flicker 128 127 = 50 := by
  rw [flicker_eq _ _ (by decide) (by decide), flicker_eq _ _ (by decide) (by decide)]
  decide

/-- A cycle that is all on or all off has the best score, and the score is from 0 to 100. -/
theorem flicker_range (on off : BitVec 8) : flicker on 0 = 0 ∧ flicker 0 off = 0 ∧ flicker on off ≤ 100 ∧ flicker on off = flicker off on ∧
    (flicker on off = 100 ↔ (on = 255 ∧ off ≠ 0) ∨ (off = 255 ∧ on ≠ 0)) := by
  have z1 : ∀ x : BitVec 8, flicker x 0 = 0 := fun x => by unfold flicker; rw [if_pos rfl]
  have z2 : ∀ x : BitVec 8, flicker 0 x = 0 := fun x => by
    unfold flicker
    split
    · rfl
    · rw [if_pos rfl]
  refine ⟨z1 on, z2 off, ?_⟩
  by_cases h1 : on = 0
  · subst h1
    rw [z1, z2]
    refine ⟨by decide, rfl, ?_⟩
    constructor
    · intro h; cases h
    · rintro (⟨h, -⟩ | ⟨-, h⟩)
      · exact absurd h (by decide)
      · exact absurd rfl h
  · by_cases h2 : off = 0
    · subst h2
      rw [z1, z2]
      refine ⟨by decide, rfl, ?_⟩
      constructor
      · intro h; cases h
      · rintro (⟨-, h⟩ | ⟨h, -⟩)
        · exact absurd rfl h
        · exact absurd h (by decide)
    · rw [flicker_eq on off h1 h2, flicker_eq off on h2 h1]
      have l1 := on.isLt
      have l2 := off.isLt
      have c1 : on = 255 ↔ on.toNat = 255 := ⟨fun h => by rw [h]; rfl, fun h => BitVec.eq_of_toNat_eq h⟩
      have c2 : off = 255 ↔ off.toNat = 255 := ⟨fun h => by rw [h]; rfl, fun h => BitVec.eq_of_toNat_eq h⟩
      refine ⟨by omega, by rw [Nat.max_comm], ?_⟩
      simp only [c1, c2, h1, h2, ne_eq, not_false_eq_true, and_true]
      omega

/-- Smaller counts do not have a worse score. -/
theorem flicker_small (on off on' off' : BitVec 8) (h1 : on ≠ 0) (h2 : off ≠ 0) (h3 : on'.toNat ≤ on.toNat) (h4 : off'.toNat ≤ off.toNat) : flicker on' off' ≤ flicker on off := by
  by_cases g1 : on' = 0
  · subst g1
    rw [(flicker_range 0 off').2.1]
    exact Nat.zero_le _
  · by_cases g2 : off' = 0
    · subst g2
      rw [(flicker_range on' 0).1]
      exact Nat.zero_le _
    · rw [flicker_eq on off h1 h2, flicker_eq on' off' g1 g2]
      omega

/-- In particular what `diminuto_modulator_factor` makes of the counts does not have a worse score. -/
theorem flicker_factor (on off : BitVec 8) (h1 : on ≠ 0) (h2 : off ≠ 0) :
    flicker (BitVec.ofNat 8 (Modulator.factor (on.toNat, off.toNat)).1) (BitVec.ofNat 8 (Modulator.factor (on.toNat, off.toNat)).2) ≤ flicker on off := by
  have h := Modulator.factor_preserves_ratio on.toNat off.toNat
  have l1 := on.isLt
  have l2 := off.isLt
  apply flicker_small on off _ _ h1 h2
  · rw [BitVec.toNat_ofNat, Nat.mod_eq_of_lt (by omega)]
    exact h.2.2.2.1
  · rw [BitVec.toNat_ofNat, Nat.mod_eq_of_lt (by omega)]
    exact h.2.2.2.2

example : Modulator.factor (102, 153) = (34, 51) ∧ flicker 34 51 = 20 ∧ flicker 102 153 = 60 := by
  rw [flicker_eq _ _ (by decide) (by decide), flicker_eq _ _ (by decide) (by decide)]
  decide

/-- Both counts are changed, or neither is, and what is returned tells which. -/
theorem flicker_changed (on off : Nat) :
    (changed on off = true → (Modulator.factor (on, off)).1 < on ∧ (Modulator.factor (on, off)).2 < off) ∧
    (changed on off = false → Modulator.factor (on, off) = (on, off)) := by
  have h := changedLoop_iff Modulator.primes (by decide) on off
  have r := Modulator.factor_preserves_ratio on off
  constructor
  · intro hc
    obtain ⟨a, b⟩ := h.1 hc
    have a : (Modulator.factor (on, off)).1 ≠ on := a
    have b : (Modulator.factor (on, off)).2 ≠ off := b
    omega
  · exact changedLoop_false Modulator.primes on off

example : changed 102 153 = true ∧ changed 17 238 = false := by decide

/-- It does not matter how close the counts are, though that is what the score is for: 1 of 200 and 199 of 200 have the same. -/
theorem flicker_close_counterexample (a b c : BitVec 8) (hb : b ≠ 0) (hc : c ≠ 0) (h1 : b.toNat ≤ a.toNat) (h2 : c.toNat ≤ a.toNat) : flicker a b = flicker a c := by
  have ha : a ≠ 0 := by
    intro h
    subst h
    exact hb (BitVec.eq_of_toNat_eq (by simpa using h1))
  rw [flicker_eq a b ha hb, flicker_eq a c ha hc, Nat.max_eq_left h1, Nat.max_eq_left h2]

example : flicker 200 1 = 78 ∧ flicker 200 199 = 78 := by
  rw [flicker_eq _ _ (by decide) (by decide), flicker_eq _ _ (by decide) (by decide)]
  decide

end Diminuto.Flicker
