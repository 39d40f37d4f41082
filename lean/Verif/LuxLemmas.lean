import Verif.LuxSpec
import Mathlib.Tactic.Linarith
import Mathlib.Tactic.NormNum
import Mathlib.Tactic.Positivity
import Mathlib.Tactic.Ring

/-! # Lemmas about the brightness -/

namespace Diminuto.Lux

variable {rnd pow : Rat → Rat}

theorem rnd_zero (h : Rounding rnd) : rnd 0 = 0 := by
  have := h.near 0 (le_refl _)
  norm_num at this
  linarith [this.1, this.2]

theorem rnd_nonneg (h : Rounding rnd) {x : Rat} (hx : 0 ≤ x) : 0 ≤ rnd x := by
  have := h.mono 0 x hx
  rwa [rnd_zero h] at this

/-- A rounded comparison of the ratio with a constant of two decimals is exact. -/
theorem ratio_le (h : Rounding rnd) (c0 c1 a : Nat) (h0 : c0 ≠ 0) (hc : c0 ≤ 65535) (ha : a ≤ 200) :
    rnd ((c1 : Rat) / c0) ≤ rnd ((a : Rat) / 100) ↔ 100 * c1 ≤ a * c0 := by
  have hp : (0 : Rat) < c0 := by exact_mod_cast Nat.pos_of_ne_zero h0
  constructor
  · intro hle
    by_contra hcon
    have hlt : a * c0 + 1 ≤ 100 * c1 := by omega
    have hlt : (a : Rat) * c0 + 1 ≤ 100 * c1 := by exact_mod_cast hlt
    have hc' : (c0 : Rat) ≤ 65535 := by exact_mod_cast hc
    have ha' : (a : Rat) ≤ 200 := by exact_mod_cast ha
    have ha0 : (0 : Rat) ≤ a := by positivity
    have hx : (a : Rat) / 100 + 1 / 6553500 ≤ c1 / c0 := by
      rw [le_div_iff₀ hp]
      have : (1 : Rat) / 6553500 * c0 ≤ 1 / 100 := by linarith
      linarith
    have h1 := (h.near ((c1 : Rat) / c0) (by positivity)).1
    have h2 := (h.near ((a : Rat) / 100) (by positivity)).2
    have h3 : (a : Rat) / 100 ≤ 2 := by linarith
    norm_num at h1 h2
    linarith
  · intro hle
    apply h.mono
    have : (100 : Rat) * c1 ≤ a * c0 := by exact_mod_cast hle
    rw [div_le_div_iff₀ hp (by norm_num)]
    linarith

/-- A rounded product. -/
theorem prod_close (h : Rounding rnd) (a z : Rat) (ha : 0 ≤ a) (hz : 0 ≤ z) : a * z - a * z / 2 ^ 51 ≤ rnd (rnd a * z) ∧ rnd (rnd a * z) ≤ a * z + a * z / 2 ^ 51 := by
  obtain ⟨h1, h2⟩ := h.near a ha
  have hn := rnd_nonneg h ha
  obtain ⟨h3, h4⟩ := h.near (rnd a * z) (by positivity)
  have h5 : rnd a * z ≤ (a + a / 2 ^ 53) * z := mul_le_mul_of_nonneg_right h2 hz
  have h6 : (a - a / 2 ^ 53) * z ≤ rnd a * z := mul_le_mul_of_nonneg_right h1 hz
  have h7 : 0 ≤ a * z := mul_nonneg ha hz
  have e5 : (a + a / 2 ^ 53) * z = a * z + a * z / 2 ^ 53 := by ring
  have e6 : (a - a / 2 ^ 53) * z = a * z - a * z / 2 ^ 53 := by ring
  rw [e5] at h5
  rw [e6] at h6
  generalize rnd a * z = u at *
  generalize a * z = w at *
  norm_num at h3 h4 h5 h6 ⊢
  constructor <;> linarith

/-- A rounded product of three. -/
theorem prod3_close (h : Rounding rnd) (a z p : Rat) (ha : 0 ≤ a) (hz : 0 ≤ z) (hp : 0 ≤ p) :
    a * z * p - a * z * p / 2 ^ 50 ≤ rnd (rnd (rnd a * z) * p) ∧ rnd (rnd (rnd a * z) * p) ≤ a * z * p + a * z * p / 2 ^ 50 := by
  obtain ⟨h1, h2⟩ := prod_close h a z ha hz
  have hn : 0 ≤ rnd (rnd a * z) := rnd_nonneg h (mul_nonneg (rnd_nonneg h ha) hz)
  obtain ⟨h3, h4⟩ := h.near (rnd (rnd a * z) * p) (by positivity)
  have h5 := mul_le_mul_of_nonneg_right h2 hp
  have h6 := mul_le_mul_of_nonneg_right h1 hp
  have h7 : 0 ≤ a * z * p := mul_nonneg (mul_nonneg ha hz) hp
  have e5 : (a * z + a * z / 2 ^ 51) * p = a * z * p + a * z * p / 2 ^ 51 := by ring
  have e6 : (a * z - a * z / 2 ^ 51) * p = a * z * p - a * z * p / 2 ^ 51 := by ring
  rw [e5] at h5
  rw [e6] at h6
  generalize rnd (rnd a * z) * p = u at *
  generalize a * z * p = w at *
  norm_num at h3 h4 h5 h6 ⊢
  constructor <;> linarith

/-- The rounded ratio. -/
def quot (rnd : Rat → Rat) (c0 c1 : Nat) : Rat := rnd ((c1 : Rat) / c0)

/-- Which formula is used does not depend on the rounding. -/
theorem lux_eq (h : Rounding rnd) (c0 c1 : Nat) (hc : c0 ≤ 65535) : lux rnd pow c0 c1 =
    match band c0 c1 with
    | 1 => rnd (rnd (rnd (304 / 10000) * c0) - rnd (rnd (rnd (62 / 1000) * c1) * pow (quot rnd c0 c1)))
    | 2 => rnd (rnd (rnd (224 / 10000) * c0) - rnd (rnd (31 / 1000) * c1))
    | 3 => rnd (rnd (rnd (128 / 10000) * c0) - rnd (rnd (153 / 10000) * c1))
    | 4 => rnd (rnd (rnd (146 / 100000) * c0) - rnd (rnd (112 / 100000) * c1))
    | _ => 0 := by
  unfold lux band
  by_cases h0 : c0 = 0
  · simp [h0]
  have e1 := ratio_le h c0 c1 50 h0 hc (by decide)
  have e2 := ratio_le h c0 c1 61 h0 hc (by decide)
  have e3 := ratio_le h c0 c1 80 h0 hc (by decide)
  have e4 := ratio_le h c0 c1 130 h0 hc (by decide)
  simp only [Nat.cast_ofNat] at e1 e2 e3 e4
  simp only [if_neg h0, quot, ← not_le, e1, e2, e3, e4]
  by_cases g1 : 2 * c1 ≤ c0
  · simp only [if_pos g1]
    rw [if_pos (by omega)]
  rw [if_neg (by omega), if_neg g1]
  by_cases g2 : 100 * c1 ≤ 61 * c0
  · simp only [if_pos g2]
    rw [if_pos (by omega)]
  rw [if_neg (by omega), if_neg g2]
  by_cases g3 : 5 * c1 ≤ 4 * c0
  · simp only [if_pos g3]
    rw [if_pos (by omega)]
  rw [if_neg (by omega), if_neg g3]
  by_cases g4 : 10 * c1 ≤ 13 * c0
  · simp only [if_pos g4]
    rw [if_pos (by omega)]
  simp only [if_neg g4]
  rw [if_neg (by omega)]

theorem band_cases (c0 c1 : Nat) : (band c0 c1 = 1 ∧ 0 < c0 ∧ 2 * c1 ≤ c0) ∨ (band c0 c1 = 2 ∧ 0 < c0 ∧ c0 < 2 * c1 ∧ 100 * c1 ≤ 61 * c0) ∨
    (band c0 c1 = 3 ∧ 0 < c0 ∧ 61 * c0 < 100 * c1 ∧ 5 * c1 ≤ 4 * c0) ∨ (band c0 c1 = 4 ∧ 0 < c0 ∧ 4 * c0 < 5 * c1 ∧ 10 * c1 ≤ 13 * c0) ∨
    (band c0 c1 = 5 ∧ (c0 = 0 ∨ 13 * c0 < 10 * c1)) := by
  unfold band
  split
  · omega
  split
  · omega
  split
  · omega
  split
  · omega
  split <;> omega

theorem quot_bound (h : Rounding rnd) (c0 c1 : Nat) (h0 : 0 < c0) (hb : 2 * c1 ≤ c0) : 0 ≤ quot rnd c0 c1 ∧ quot rnd c0 c1 ≤ 51 / 100 := by
  have hp : (0 : Rat) < c0 := by exact_mod_cast h0
  have hb' : (2 : Rat) * c1 ≤ c0 := by exact_mod_cast hb
  have hx : (c1 : Rat) / c0 ≤ 1 / 2 := by
    rw [div_le_div_iff₀ hp (by norm_num)]
    linarith
  have hn : (0 : Rat) ≤ (c1 : Rat) / c0 := by positivity
  refine ⟨rnd_nonneg h hn, ?_⟩
  have := (h.near _ hn).2
  unfold quot
  norm_num at this ⊢
  linarith

/-- The value is that of the formula but for the rounding. -/
theorem lux_near (h : Rounding rnd) (hp : Power pow) (c0 c1 : Nat) (hc : c0 ≤ 65535) :
    formula (pow (quot rnd c0 c1)) c0 c1 - c0 / 2 ^ 53 ≤ lux rnd pow c0 c1 ∧ lux rnd pow c0 c1 ≤ formula (pow (quot rnd c0 c1)) c0 c1 + c0 / 2 ^ 53 := by
  rw [lux_eq h c0 c1 hc]
  unfold formula
  have z0 : (0 : Rat) ≤ c0 := by positivity
  have z1 : (0 : Rat) ≤ c1 := by positivity
  rcases band_cases c0 c1 with ⟨e, hpos, g⟩ | ⟨e, hpos, g1, g⟩ | ⟨e, hpos, g1, g⟩ | ⟨e, hpos, g1, g⟩ | ⟨e, g⟩ <;> rw [e] <;> simp only []
  · have g' : (2 : Rat) * c1 ≤ c0 := by exact_mod_cast g
    obtain ⟨q0, q1⟩ := quot_bound h c0 c1 hpos g
    obtain ⟨p0, p1⟩ := hp.bound _ q0 q1
    obtain ⟨a1, a2⟩ := prod_close h (304 / 10000) c0 (by norm_num) z0
    obtain ⟨b1, b2⟩ := prod3_close h (62 / 1000) c1 (pow (quot rnd c0 c1)) (by norm_num) z1 p0
    have hb : (62 / 1000 : Rat) * c1 * pow (quot rnd c0 c1) ≤ 62 / 1000 * c1 * (51 / 100) := mul_le_mul_of_nonneg_left (by linarith) (by positivity)
    have hb0 : 0 ≤ (62 / 1000 : Rat) * c1 * pow (quot rnd c0 c1) := by positivity
    generalize (62 / 1000 : Rat) * c1 * pow (quot rnd c0 c1) = b at *
    generalize rnd (rnd (304 / 10000) * c0) = A at *
    generalize rnd (rnd (rnd (62 / 1000) * c1) * pow (quot rnd c0 c1)) = B at *
    have hD : 0 ≤ A - B := by
      norm_num at a1 a2 b1 b2 hb
      linarith
    obtain ⟨d1, d2⟩ := h.near _ hD
    norm_num at a1 a2 b1 b2 hb d1 d2 ⊢
    constructor <;> linarith
  · have g' : (100 : Rat) * c1 ≤ 61 * c0 := by exact_mod_cast g
    obtain ⟨a1, a2⟩ := prod_close h (224 / 10000) c0 (by norm_num) z0
    obtain ⟨b1, b2⟩ := prod_close h (31 / 1000) c1 (by norm_num) z1
    generalize rnd (rnd (224 / 10000) * c0) = A at *
    generalize rnd (rnd (31 / 1000) * c1) = B at *
    have hD : 0 ≤ A - B := by
      norm_num at a1 a2 b1 b2
      linarith
    obtain ⟨d1, d2⟩ := h.near _ hD
    norm_num at a1 a2 b1 b2 d1 d2 ⊢
    constructor <;> linarith
  · have g' : (5 : Rat) * c1 ≤ 4 * c0 := by exact_mod_cast g
    obtain ⟨a1, a2⟩ := prod_close h (128 / 10000) c0 (by norm_num) z0
    obtain ⟨b1, b2⟩ := prod_close h (153 / 10000) c1 (by norm_num) z1
    generalize rnd (rnd (128 / 10000) * c0) = A at *
    generalize rnd (rnd (153 / 10000) * c1) = B at *
    have hD : 0 ≤ A - B := by
      norm_num at a1 a2 b1 b2
      linarith
    obtain ⟨d1, d2⟩ := h.near _ hD
    norm_num at a1 a2 b1 b2 d1 d2 ⊢
    constructor <;> linarith
  · have g' : (10 : Rat) * c1 ≤ 13 * c0 := by exact_mod_cast g
    obtain ⟨a1, a2⟩ := prod_close h (146 / 100000) c0 (by norm_num) z0
    obtain ⟨b1, b2⟩ := prod_close h (112 / 100000) c1 (by norm_num) z1
    generalize rnd (rnd (146 / 100000) * c0) = A at *
    generalize rnd (rnd (112 / 100000) * c1) = B at *
    have hD : 0 ≤ A - B := by
      norm_num at a1 a2 b1 b2
      linarith
    obtain ⟨d1, d2⟩ := h.near _ hD
    norm_num at a1 a2 b1 b2 d1 d2 ⊢
    constructor <;> linarith
  · have : (0 : Rat) ≤ c0 / 2 ^ 53 := by positivity
    constructor <;> linarith

/-- Bounds of the formulas. -/
theorem formula_bounds (p : Rat) (c0 c1 : Nat) (hp : 0 ≤ p ∧ p ≤ 51 / 100) : (band c0 c1 = 1 → 14 / 1000 * (c0 : Rat) ≤ formula p c0 c1 ∧ formula p c0 c1 ≤ 304 / 10000 * c0) ∧
    (band c0 c1 = 2 → 349 / 100000 * (c0 : Rat) ≤ formula p c0 c1 ∧ formula p c0 c1 ≤ 69 / 10000 * c0) ∧
    (band c0 c1 = 3 → 56 / 100000 * (c0 : Rat) ≤ formula p c0 c1 ∧ formula p c0 c1 ≤ 3467 / 1000000 * c0) ∧
    (band c0 c1 = 4 → 4 / 1000000 * (c0 : Rat) ≤ formula p c0 c1 ∧ formula p c0 c1 ≤ 564 / 1000000 * c0) ∧
    (band c0 c1 = 5 → formula p c0 c1 = 0) := by
  have z1 : (0 : Rat) ≤ c1 := by positivity
  unfold formula
  rcases band_cases c0 c1 with ⟨e, hpos, g⟩ | ⟨e, hpos, g1, g⟩ | ⟨e, hpos, g1, g⟩ | ⟨e, hpos, g1, g⟩ | ⟨e, g⟩ <;> rw [e] <;> simp
  · have g' : (2 : Rat) * c1 ≤ c0 := by exact_mod_cast g
    have hb : (62 / 1000 : Rat) * c1 * p ≤ 62 / 1000 * c1 * (51 / 100) := mul_le_mul_of_nonneg_left hp.2 (by positivity)
    have hb0 : 0 ≤ (62 / 1000 : Rat) * c1 * p := mul_nonneg (by positivity) hp.1
    norm_num at hb hb0 ⊢
    constructor <;> linarith
  · have g' : (100 : Rat) * c1 ≤ 61 * c0 := by exact_mod_cast g
    have g1' : (c0 : Rat) < 2 * c1 := by exact_mod_cast g1
    constructor <;> linarith
  · have g' : (5 : Rat) * c1 ≤ 4 * c0 := by exact_mod_cast g
    have g1' : (61 : Rat) * c0 < 100 * c1 := by exact_mod_cast g1
    constructor <;> linarith
  · have g' : (10 : Rat) * c1 ≤ 13 * c0 := by exact_mod_cast g
    have g1' : (4 : Rat) * c0 < 5 * c1 := by exact_mod_cast g1
    constructor <;> linarith

end Diminuto.Lux
