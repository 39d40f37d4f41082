import Verif.LuxLemmas

/-! # Properties of the brightness that is computed from the channels of a light sensor -/

namespace Diminuto.Lux

variable {rnd pow : Rat → Rat}

/-- For all values of the channels the formula of the data sheet for their ratio is used, in spite of the rounding of the ratio and of the limits, and the value is that of the formula up to
two to the -53 times the first channel.  The power is that of the rounded ratio. -/
theorem lux_close (h : Rounding rnd) (hp : Power pow) (raw0 raw1 : Nat) (h0 : raw0 < 2 ^ 16) :
    formula (pow (rnd ((raw1 : Rat) / raw0))) raw0 raw1 - raw0 / 2 ^ 53 ≤ lux rnd pow raw0 raw1 ∧
    lux rnd pow raw0 raw1 ≤ formula (pow (rnd ((raw1 : Rat) / raw0))) raw0 raw1 + raw0 / 2 ^ 53 :=
  lux_near h hp raw0 raw1 (by omega)

/-- The brightness is not negative; it is zero exactly if the first channel is zero or the ratio is above 1.3; and it is greatest for the greatest value of the first channel and zero for the second, where it
is 1992.264 up to the rounding. -/
theorem lux_range (h : Rounding rnd) (hp : Power pow) (raw0 raw1 : Nat) (h0 : raw0 < 2 ^ 16) :
    0 ≤ lux rnd pow raw0 raw1 ∧ (lux rnd pow raw0 raw1 = 0 ↔ raw0 = 0 ∨ 13 * raw0 < 10 * raw1) ∧ lux rnd pow raw0 raw1 ≤ lux rnd pow 65535 0 ∧
    1992264 / 1000 - 1 / 10 ^ 11 ≤ lux rnd pow 65535 0 ∧ lux rnd pow 65535 0 ≤ 1992264 / 1000 + 1 / 10 ^ 11 := by
  have top := lux_near h hp 65535 0 (by omega)
  have fm : formula (pow (quot rnd 65535 0)) 65535 0 = 1992264 / 1000 := by
    have : band 65535 0 = 1 := by decide
    unfold formula
    rw [this]
    norm_num
  rw [fm] at top
  have hc : (raw0 : Rat) ≤ 65535 := by exact_mod_cast (by omega : raw0 ≤ 65535)
  have z0 : (0 : Rat) ≤ raw0 := by positivity
  have near := lux_near h hp raw0 raw1 (by omega)
  have hq : 0 < raw0 → 2 * raw1 ≤ raw0 → 0 ≤ pow (quot rnd raw0 raw1) ∧ pow (quot rnd raw0 raw1) ≤ 51 / 100 := by
    intro g1 g2
    obtain ⟨a, b⟩ := quot_bound h raw0 raw1 g1 g2
    obtain ⟨c, d⟩ := hp.bound _ a b
    exact ⟨c, by linarith⟩
  have b0 := formula_bounds 0 raw0 raw1 ⟨le_refl _, by norm_num⟩
  have other : ∀ p, band raw0 raw1 ≠ 1 → formula p raw0 raw1 = formula 0 raw0 raw1 := by
    intro p hb
    rcases band_cases raw0 raw1 with ⟨e, -⟩ | ⟨e, -⟩ | ⟨e, -⟩ | ⟨e, -⟩ | ⟨e, -⟩
    · exact absurd e hb
    all_goals simp [formula, e]
  have fin : 1992264 / 1000 - 1 / 10 ^ 11 ≤ lux rnd pow 65535 0 ∧ lux rnd pow 65535 0 ≤ 1992264 / 1000 + 1 / 10 ^ 11 := by
    norm_num at top ⊢
    constructor <;> linarith [top.1, top.2]
  have low := fin.1
  norm_num at low
  rcases band_cases raw0 raw1 with ⟨e, hpos, g⟩ | ⟨e, hpos, g1, g⟩ | ⟨e, hpos, g1, g⟩ | ⟨e, hpos, g1, g⟩ | ⟨e, g⟩
  · have hpos' : (0 : Rat) < raw0 := by exact_mod_cast hpos
    have b := (formula_bounds _ raw0 raw1 (hq hpos g)).1 e
    norm_num at near b
    have gt : 0 < lux rnd pow raw0 raw1 := by linarith [near.1, b.1]
    refine ⟨le_of_lt gt, ⟨fun e0 => by rw [e0] at gt; exact absurd gt (lt_irrefl _), fun g' => absurd g' (by omega)⟩, ?_, fin⟩
    rw [lux_eq h raw0 raw1 (by omega), lux_eq h 65535 0 (by omega), e, show band 65535 0 = 1 by decide]
    simp only []
    apply h.mono
    have e2 : rnd (rnd (rnd (62 / 1000) * ((0 : Nat) : Rat)) * pow (quot rnd 65535 0)) = 0 := by
      simp [rnd_zero h]
    rw [e2]
    have hB : 0 ≤ rnd (rnd (rnd (62 / 1000) * (raw1 : Rat)) * pow (quot rnd raw0 raw1)) :=
      rnd_nonneg h (mul_nonneg (rnd_nonneg h (mul_nonneg (rnd_nonneg h (by norm_num)) (by positivity))) (hq hpos g).1)
    have hA : rnd (rnd (304 / 10000) * (raw0 : Rat)) ≤ rnd (rnd (304 / 10000) * ((65535 : Nat) : Rat)) :=
      h.mono _ _ (mul_le_mul_of_nonneg_left (by push_cast; exact hc) (rnd_nonneg h (by norm_num)))
    linarith
  · have hpos' : (0 : Rat) < raw0 := by exact_mod_cast hpos
    have b := b0.2.1 e
    rw [other _ (by omega)] at near
    norm_num at near b
    have gt : 0 < lux rnd pow raw0 raw1 := by linarith [near.1, b.1]
    exact ⟨le_of_lt gt, ⟨fun e0 => by rw [e0] at gt; exact absurd gt (lt_irrefl _), fun g' => absurd g' (by omega)⟩, by linarith [near.2, b.2], fin⟩
  · have hpos' : (0 : Rat) < raw0 := by exact_mod_cast hpos
    have b := b0.2.2.1 e
    rw [other _ (by omega)] at near
    norm_num at near b
    have gt : 0 < lux rnd pow raw0 raw1 := by linarith [near.1, b.1]
    exact ⟨le_of_lt gt, ⟨fun e0 => by rw [e0] at gt; exact absurd gt (lt_irrefl _), fun g' => absurd g' (by omega)⟩, by linarith [near.2, b.2], fin⟩
  · have hpos' : (0 : Rat) < raw0 := by exact_mod_cast hpos
    have b := b0.2.2.2.1 e
    rw [other _ (by omega)] at near
    norm_num at near b
    have gt : 0 < lux rnd pow raw0 raw1 := by linarith [near.1, b.1]
    exact ⟨le_of_lt gt, ⟨fun e0 => by rw [e0] at gt; exact absurd gt (lt_irrefl _), fun g' => absurd g' (by omega)⟩, by linarith [near.2, b.2], fin⟩
  · have e0 : lux rnd pow raw0 raw1 = 0 := by
      rw [lux_eq h raw0 raw1 (by omega), e]
      rfl
    rw [e0]
    exact ⟨le_refl _, ⟨fun _ => g, fun _ => rfl⟩, by linarith, fin⟩

/-- More infrared of the same total does not make it brighter, unless the ratio gets above 0.8. -/
theorem lux_order_partial (h : Rounding rnd) (hp : Power pow) (raw0 raw1 raw1' : Nat) (h0 : raw0 < 2 ^ 16) (hle : raw1 ≤ raw1') (hb : 4 * raw0 < 5 * raw1 ∨ 5 * raw1' ≤ 4 * raw0 ∨ 13 * raw0 < 10 * raw1') :
    lux rnd pow raw0 raw1' ≤ lux rnd pow raw0 raw1 := by
  have rng := lux_range h hp raw0 raw1 h0
  have z0 : (0 : Rat) ≤ raw0 := by positivity
  have hle' : (raw1 : Rat) ≤ raw1' := by exact_mod_cast hle
  have n1 := lux_near h hp raw0 raw1 (by omega)
  have n2 := lux_near h hp raw0 raw1' (by omega)
  have lin : ∀ k l : Rat, 0 ≤ l → rnd (rnd (rnd k * (raw0 : Rat)) - rnd (rnd l * (raw1' : Rat))) ≤ rnd (rnd (rnd k * (raw0 : Rat)) - rnd (rnd l * (raw1 : Rat))) := by
    intro k l hl
    apply h.mono
    have := h.mono _ _ (mul_le_mul_of_nonneg_left hle' (rnd_nonneg h hl))
    linarith
  have b2 := formula_bounds 0 raw0 raw1' ⟨le_refl _, by norm_num⟩
  have c2 := formula_bounds 0 raw0 raw1 ⟨le_refl _, by norm_num⟩
  have other : ∀ p r, band raw0 r ≠ 1 → formula p raw0 r = formula 0 raw0 r := by
    intro p r hb
    rcases band_cases raw0 r with ⟨e, -⟩ | ⟨e, -⟩ | ⟨e, -⟩ | ⟨e, -⟩ | ⟨e, -⟩
    · exact absurd e hb
    all_goals simp [formula, e]
  rcases band_cases raw0 raw1' with ⟨e', hpos, g'⟩ | ⟨e', hpos, g1', g'⟩ | ⟨e', hpos, g1', g'⟩ | ⟨e', hpos, g1', g'⟩ | ⟨e', g'⟩
  · rcases band_cases raw0 raw1 with ⟨e, -, g⟩ | ⟨e, -, g1, g⟩ | ⟨e, -, g1, g⟩ | ⟨e, -, g1, g⟩ | ⟨e, g⟩
    · rw [lux_eq h raw0 raw1 (by omega), lux_eq h raw0 raw1' (by omega), e, e']
      simp only []
      apply h.mono
      obtain ⟨q0, q1⟩ := quot_bound h raw0 raw1 hpos g
      obtain ⟨q0', q1'⟩ := quot_bound h raw0 raw1' hpos g'
      have hq : quot rnd raw0 raw1 ≤ quot rnd raw0 raw1' := h.mono _ _ (div_le_div_of_nonneg_right hle' z0)
      have hpw := hp.mono _ _ q0 hq q1'
      have m1 : rnd (rnd (62 / 1000) * (raw1 : Rat)) ≤ rnd (rnd (62 / 1000) * (raw1' : Rat)) := h.mono _ _ (mul_le_mul_of_nonneg_left hle' (rnd_nonneg h (by norm_num)))
      have m2 : 0 ≤ rnd (rnd (62 / 1000) * (raw1' : Rat)) := rnd_nonneg h (mul_nonneg (rnd_nonneg h (by norm_num)) (by positivity))
      have := h.mono _ _ (mul_le_mul m1 hpw (hp.bound _ q0 q1).1 m2)
      linarith
    all_goals omega
  · rcases band_cases raw0 raw1 with ⟨e, -, g⟩ | ⟨e, -, g1, g⟩ | ⟨e, -, g1, g⟩ | ⟨e, -, g1, g⟩ | ⟨e, g⟩
    · obtain ⟨q0, q1⟩ := quot_bound h raw0 raw1 hpos g
      obtain ⟨p0, p1⟩ := hp.bound _ q0 q1
      have b := (formula_bounds _ raw0 raw1 ⟨p0, by linarith⟩).1 e
      have b' := b2.2.1 e'
      rw [other _ raw1' (by omega)] at n2
      norm_num at n1 n2 b b'
      linarith [n1.1, n2.2, b.1, b'.2]
    · rw [lux_eq h raw0 raw1 (by omega), lux_eq h raw0 raw1' (by omega), e, e']
      exact lin _ _ (by norm_num)
    all_goals omega
  · rcases band_cases raw0 raw1 with ⟨e, -, g⟩ | ⟨e, -, g1, g⟩ | ⟨e, -, g1, g⟩ | ⟨e, -, g1, g⟩ | ⟨e, g⟩
    · obtain ⟨q0, q1⟩ := quot_bound h raw0 raw1 hpos g
      obtain ⟨p0, p1⟩ := hp.bound _ q0 q1
      have b := (formula_bounds _ raw0 raw1 ⟨p0, by linarith⟩).1 e
      have b' := b2.2.2.1 e'
      rw [other _ raw1' (by omega)] at n2
      norm_num at n1 n2 b b'
      linarith [n1.1, n2.2, b.1, b'.2]
    · have b := c2.2.1 e
      have b' := b2.2.2.1 e'
      rw [other _ raw1' (by omega)] at n2
      rw [other _ raw1 (by omega)] at n1
      norm_num at n1 n2 b b'
      linarith [n1.1, n2.2, b.1, b'.2]
    · rw [lux_eq h raw0 raw1 (by omega), lux_eq h raw0 raw1' (by omega), e, e']
      exact lin _ _ (by norm_num)
    all_goals omega
  · rcases band_cases raw0 raw1 with ⟨e, -, g⟩ | ⟨e, -, g1, g⟩ | ⟨e, -, g1, g⟩ | ⟨e, -, g1, g⟩ | ⟨e, g⟩
    · omega
    · omega
    · omega
    · rw [lux_eq h raw0 raw1 (by omega), lux_eq h raw0 raw1' (by omega), e, e']
      exact lin _ _ (by norm_num)
    · omega
  · rw [lux_eq h raw0 raw1' (by omega), e']
    exact rng.1

/-- In general it does: with a total of 10000 and infrared of 8000 there are 5.6 Lux, with an infrared of 8001 there are more. -/
theorem lux_order_counterexample (h : Rounding rnd) (hp : Power pow) : lux rnd pow 10000 8000 < 561 / 100 ∧ 563 / 100 < lux rnd pow 10000 8001 := by
  have n1 := lux_near h hp 10000 8000 (by omega)
  have n2 := lux_near h hp 10000 8001 (by omega)
  have e1 : band 10000 8000 = 3 := by decide
  have e2 : band 10000 8001 = 4 := by decide
  unfold formula at n1 n2
  rw [e1] at n1
  rw [e2] at n2
  norm_num at n1 n2 ⊢
  constructor
  · linarith [n1.2]
  · linarith [n2.1]

/-- Exact arithmetic, and the square instead of the power 1.4, are among what is considered. -/
example : Rounding id ∧ Power (fun x => x * x) := by
  refine ⟨⟨fun x hx => ?_, fun x y h => h⟩, ⟨fun x h1 h2 => ⟨mul_nonneg h1 h1, ?_⟩, fun x y h1 h2 h3 => mul_le_mul h2 h2 h1 (le_trans h1 h2)⟩⟩
  · simp only [id]
    have : 0 ≤ x / 2 ^ 53 := by positivity
    constructor <;> linarith
  · have := mul_le_mul_of_nonneg_left h2 h1
    norm_num at this
    linarith

/-- A value of the tool that is quoted in the source. -/
example : lux id (fun x => x * x) 65535 0 = 1992264 / 1000 := by
  simp only [lux, id]
  norm_num

end Diminuto.Lux
