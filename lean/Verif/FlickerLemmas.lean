import Verif.Flicker
import Verif.ModulatorProps
import Mathlib.Tactic.Linarith
import Mathlib.Tactic.Positivity
import Mathlib.Tactic.FieldSimp
import Mathlib.Tactic.NormNum
import Mathlib.Tactic.Ring
import Mathlib.Algebra.Order.Field.Rat

/-! # Lemmas about the score of the cycles of a modulator -/

namespace Diminuto.Flicker

/-- The value of a `double`. -/
def Double.val (x : Double) : ℚ := (x.m : ℚ) / 2 ^ x.k

/-- Some rows of the table: the greater count is `a`. -/
def row (a : Nat) : Bool := (List.range a).all fun b => (score (a - (b + 1)) (a + (b + 1))).trunc == 100 * a / 255

theorem row_51 : row 51 = true := by decide +kernel
theorem row_102 : row 102 = true := by decide +kernel
theorem row_153 : row 153 = true := by decide +kernel
theorem row_204 : row 204 = true := by decide +kernel
theorem row_255 : row 255 = true := by decide +kernel

theorem row_use {a b : Nat} (h : row a = true) (h1 : 0 < b) (h2 : b ≤ a) : (score (a - b) (a + b)).trunc = 100 * a / 255 := by
  have := List.all_eq_true.1 h (b - 1) (List.mem_range.2 (by omega))
  rw [show b - 1 + 1 = b by omega] at this
  simpa using this

theorem scale_spec (n d : Nat) (hn : 0 < n) (hd : 0 < d) (hk : Nat.log2 n < 53 + Nat.log2 d) : 2 ^ 52 * d ≤ n * 2 ^ scale n d ∧ n * 2 ^ scale n d < 2 ^ 53 * d := by
  have n1 : 2 ^ Nat.log2 n ≤ n := Nat.log2_self_le (by omega)
  have n2 : n < 2 ^ (Nat.log2 n + 1) := Nat.lt_log2_self
  have d1 : 2 ^ Nat.log2 d ≤ d := Nat.log2_self_le (by omega)
  have d2 : d < 2 ^ (Nat.log2 d + 1) := Nat.lt_log2_self
  obtain ⟨k, hk'⟩ : ∃ k, 53 + Nat.log2 d - Nat.log2 n = k + 1 := ⟨53 + Nat.log2 d - Nat.log2 n - 1, by omega⟩
  have lo : 2 ^ 52 * d ≤ n * 2 ^ (k + 1) := by
    calc 2 ^ 52 * d ≤ 2 ^ 52 * 2 ^ (Nat.log2 d + 1) := Nat.mul_le_mul_left _ (Nat.le_of_lt d2)
      _ = 2 ^ (Nat.log2 n) * 2 ^ (k + 1) := by rw [← Nat.pow_add, ← Nat.pow_add]; congr 1; omega
      _ ≤ _ := Nat.mul_le_mul_right _ n1
  have hi : n * 2 ^ (k + 1) < 2 ^ 54 * d := by
    calc n * 2 ^ (k + 1) < 2 ^ (Nat.log2 n + 1) * 2 ^ (k + 1) := Nat.mul_lt_mul_of_pos_right n2 (by positivity)
      _ = 2 ^ 54 * 2 ^ Nat.log2 d := by rw [← Nat.pow_add, ← Nat.pow_add]; congr 1; omega
      _ ≤ _ := Nat.mul_le_mul_left _ d1
  have e : scale n d = if n * 2 ^ (k + 1) / d ≥ 2 ^ 53 then k else k + 1 := by
    unfold scale
    simp only [hk']
    rfl
  rw [e]
  split
  · rename_i h
    have := (Nat.le_div_iff_mul_le hd).1 h
    have e2 : n * 2 ^ (k + 1) = 2 * (n * 2 ^ k) := by rw [Nat.pow_succ]; ring
    rw [e2] at this hi
    omega
  · rename_i h
    exact ⟨lo, (Nat.div_lt_iff_lt_mul hd).1 (by omega)⟩

/-- What is rounded is not changed by more than half of the last bit, and a significand has 53 bits. -/
theorem round_half (n d : Nat) (hn : 0 < n) (hd : 0 < d) (hk : Nat.log2 n < 53 + Nat.log2 d) :
    2 * ((round n d).m * d) ≤ 2 * (n * 2 ^ (round n d).k) + d ∧ 2 * (n * 2 ^ (round n d).k) ≤ 2 * ((round n d).m * d) + d ∧
    2 ^ 52 * d ≤ n * 2 ^ (round n d).k ∧ 2 ^ 52 ≤ (round n d).m ∧ (round n d).m ≤ 2 ^ 53 := by
  obtain ⟨lo, hi⟩ := scale_spec n d hn hd hk
  have key := Nat.div_add_mod (n * 2 ^ scale n d) d
  have hr := Nat.mod_lt (n * 2 ^ scale n d) hd
  have q1 : 2 ^ 52 ≤ n * 2 ^ scale n d / d := (Nat.le_div_iff_mul_le hd).2 lo
  have q2 : n * 2 ^ scale n d / d < 2 ^ 53 := (Nat.div_lt_iff_lt_mul hd).2 hi
  unfold round
  rw [if_neg (by omega)]
  simp only []
  generalize hN : n * 2 ^ scale n d = N at *
  generalize N / d = q at *
  generalize N % d = r at *
  have e1 : q * d = d * q := Nat.mul_comm _ _
  have e2 : (q + 1) * d = d * q + d := by ring
  split
  · simp only [hN, e2]
    refine ⟨?_, ?_, ?_, ?_, ?_⟩ <;> omega
  · rename_i h
    simp only [hN, e1]
    refine ⟨?_, ?_, ?_, ?_, ?_⟩ <;> omega

/-- Within a part `t` of a number. -/
def Near (t x y : ℚ) : Prop := (1 - t) * x ≤ y ∧ y ≤ (1 + t) * x

theorem round_near (n d : Nat) (hd : 0 < d) (hk : Nat.log2 n < 53 + Nat.log2 d) : Near (1 / 2 ^ 53) ((n : ℚ) / d) (round n d).val := by
  rcases Nat.eq_zero_or_pos n with rfl | hn
  · unfold Near Double.val round
    simp
  · obtain ⟨h1, h2, h3, -, -⟩ := round_half n d hn hd hk
    unfold Near Double.val
    generalize round n d = x at *
    have p : (0 : ℚ) < 2 ^ x.k := by positivity
    have pd : (0 : ℚ) < d := by exact_mod_cast hd
    have h1' : 2 * ((x.m : ℚ) * d) ≤ 2 * (n * 2 ^ x.k) + d := by exact_mod_cast h1
    have h2' : 2 * ((n : ℚ) * 2 ^ x.k) ≤ 2 * (x.m * d) + d := by exact_mod_cast h2
    have h3' : 2 ^ 52 * (d : ℚ) ≤ n * 2 ^ x.k := by exact_mod_cast h3
    have e1 : (1 - 1 / 2 ^ 53) * ((n : ℚ) / d) = ((1 - 1 / 2 ^ 53) * (n * 2 ^ x.k)) / (d * 2 ^ x.k) := by field_simp
    have e2 : (1 + 1 / 2 ^ 53) * ((n : ℚ) / d) = ((1 + 1 / 2 ^ 53) * (n * 2 ^ x.k)) / (d * 2 ^ x.k) := by field_simp
    have e3 : (x.m : ℚ) / 2 ^ x.k = (x.m * d) / (d * 2 ^ x.k) := by field_simp
    rw [e1, e2, e3]
    generalize (n : ℚ) * 2 ^ x.k = N at *
    generalize (x.m : ℚ) * d = Q at *
    have pp : (0 : ℚ) < d * 2 ^ x.k := by positivity
    constructor
    · apply div_le_div_of_nonneg_right _ (le_of_lt pp)
      norm_num at *
      linarith
    · apply div_le_div_of_nonneg_right _ (le_of_lt pp)
      norm_num at *
      linarith

theorem Near.trans {s t x y z : ℚ} (h : Near s x y) (g : Near t y z) (hx : 0 ≤ x) (hs : 0 ≤ s) (hs1 : s ≤ 1) (ht : 0 ≤ t) (ht1 : t ≤ 1) : Near (s + 2 * t) x z := by
  obtain ⟨h1, h2⟩ := h
  obtain ⟨g1, g2⟩ := g
  constructor
  · have : (1 - t) * ((1 - s) * x) ≤ (1 - t) * y := mul_le_mul_of_nonneg_left h1 (by linarith)
    have e : 0 ≤ s * t * x := by positivity
    have e' : 0 ≤ t * x := by positivity
    nlinarith
  · have : (1 + t) * y ≤ (1 + t) * ((1 + s) * x) := mul_le_mul_of_nonneg_left h2 (by linarith)
    have e : s * (t * x) ≤ 1 * (t * x) := mul_le_mul_of_nonneg_right hs1 (by positivity)
    nlinarith

theorem round_close (n d : Nat) (hd : 0 < d) (h : (n : ℚ) / d ≤ 2 ^ 20) : Near (1 / 2 ^ 53) ((n : ℚ) / d) (round n d).val := by
  rcases Nat.eq_zero_or_pos n with rfl | hn
  · unfold Near Double.val round
    simp
  · apply round_near n d hd
    have pd : (0 : ℚ) < d := by exact_mod_cast hd
    have h' : (n : ℚ) ≤ 2 ^ 20 * d := (div_le_iff₀ pd).1 h
    have h'' : n ≤ 2 ^ 20 * d := by exact_mod_cast h'
    have n1 : 2 ^ Nat.log2 n ≤ n := Nat.log2_self_le (by omega)
    have d2 : d < 2 ^ (Nat.log2 d + 1) := Nat.lt_log2_self
    have : 2 ^ Nat.log2 n < 2 ^ (20 + (Nat.log2 d + 1)) := by
      rw [Nat.pow_add 2 20]
      omega
    have := (Nat.pow_lt_pow_iff_right (by decide : 1 < 2)).1 this
    omega

theorem val_nonneg (x : Double) : 0 ≤ x.val := by unfold Double.val; positivity

theorem div_close (x : Double) (c : Nat) (hc : 0 < c) (h : x.val ≤ 2 ^ 20) : Near (1 / 2 ^ 53) (x.val / c) (x.div c).val := by
  have e : x.val / c = ((x.m : ℚ) / ((2 ^ x.k * c : Nat) : ℚ)) := by
    unfold Double.val
    push_cast
    field_simp
  have hc' : (1 : ℚ) ≤ c := by exact_mod_cast hc
  rw [e]
  apply round_close
  · positivity
  · rw [← e]
    exact le_trans (div_le_self (val_nonneg x) hc') h

theorem add_close (x y : Double) (h : x.val + y.val ≤ 2 ^ 20) : Near (1 / 2 ^ 53) (x.val + y.val) (x.add y).val := by
  have e : x.val + y.val = (((x.m * 2 ^ y.k + y.m * 2 ^ x.k : Nat) : ℚ) / ((2 ^ (x.k + y.k) : Nat) : ℚ)) := by
    unfold Double.val
    push_cast
    rw [pow_add]
    field_simp
  rw [e]
  apply round_close
  · positivity
  · rw [← e]
    exact h

theorem mul_close (x : Double) (c : Nat) (h : x.val * c ≤ 2 ^ 20) : Near (1 / 2 ^ 53) (x.val * c) (x.mul c).val := by
  have e : x.val * c = (((x.m * c : Nat) : ℚ) / ((2 ^ x.k : Nat) : ℚ)) := by
    unfold Double.val
    push_cast
    ring
  rw [e]
  apply round_close
  · positivity
  · rw [← e]
    exact h

theorem trunc_eq (x : Double) (n : Nat) (h1 : (n : ℚ) ≤ x.val) (h2 : x.val < n + 1) : x.trunc = n := by
  unfold Double.val at h1 h2
  unfold Double.trunc
  have p : (0 : ℚ) < 2 ^ x.k := by positivity
  have h1' : (n : ℚ) * 2 ^ x.k ≤ x.m := (le_div_iff₀ p).1 h1
  have h2' : (x.m : ℚ) < (n + 1) * 2 ^ x.k := (div_lt_iff₀ p).1 h2
  have h1'' : n * 2 ^ x.k ≤ x.m := by exact_mod_cast h1'
  have h2'' : x.m < (n + 1) * 2 ^ x.k := by exact_mod_cast h2'
  exact Nat.div_eq_of_lt_le h1'' h2''

/-- The score before it is truncated. -/
theorem score_close (a b : Nat) (h2 : b ≤ a) (h3 : a ≤ 255) : Near (16 / 2 ^ 53) (100 * (a : ℚ) / 255) (score (a - b) (a + b)).val := by
  have ha : (a : ℚ) ≤ 255 := by exact_mod_cast h3
  have ha0 : (0 : ℚ) ≤ a := by positivity
  have hb : (b : ℚ) ≤ a := by exact_mod_cast h2
  have hb0 : (0 : ℚ) ≤ b := by positivity
  have v1 : (Double.mk (a - b) 0).val = a - b := by
    unfold Double.val
    simp [Nat.cast_sub h2]
  have v2 : (Double.mk (a + b) 0).val = a + b := by
    unfold Double.val
    simp
  obtain ⟨l1, r1⟩ := div_close ⟨a - b, 0⟩ 255 (by decide) (by rw [v1]; linarith)
  obtain ⟨l2, r2⟩ := div_close ⟨a + b, 0⟩ 255 (by decide) (by rw [v2]; linarith)
  rw [v1] at l1 r1
  rw [v2] at l2 r2
  unfold score
  generalize Double.div ⟨a - b, 0⟩ 255 = x at *
  generalize Double.div ⟨a + b, 0⟩ 255 = y at *
  push_cast at l1 l2 r1 r2
  have n1 : Near (1 / 2 ^ 53) (2 * (a : ℚ) / 255) (x.val + y.val) := ⟨by linarith, by linarith⟩
  have n2 := n1.trans (add_close x y (by have h := n1.2; norm_num at h ⊢; linarith)) (by positivity) (by norm_num) (by norm_num) (by norm_num) (by norm_num)
  generalize x.add y = z at *
  have n3' := div_close z 2 (by decide) (by have h := n2.2; norm_num at h ⊢; linarith)
  have n3 : Near (1 / 2 ^ 53 + 2 * (1 / 2 ^ 53)) ((a : ℚ) / 255) (z.val / (2 : Nat)) := by
    obtain ⟨p, q⟩ := n2
    push_cast
    exact ⟨by linarith, by linarith⟩
  have n4 := n3.trans n3' (by positivity) (by norm_num) (by norm_num) (by norm_num) (by norm_num)
  generalize z.div 2 = w at *
  have n5 : Near (1 / 2 ^ 53 + 2 * (1 / 2 ^ 53) + 2 * (1 / 2 ^ 53)) (100 * (a : ℚ) / 255) (w.val * (100 : Nat)) := by
    obtain ⟨p, q⟩ := n4
    push_cast
    exact ⟨by linarith, by linarith⟩
  have n6 := n5.trans (mul_close w 100 (by have h := n5.2; norm_num at h ⊢; linarith)) (by positivity) (by norm_num) (by norm_num) (by norm_num) (by norm_num)
  obtain ⟨p, q⟩ := n6
  have hp : (0 : ℚ) ≤ 100 * (a : ℚ) / 255 := by positivity
  constructor
  · refine le_trans (mul_le_mul_of_nonneg_right ?_ hp) p
    norm_num
  · refine le_trans q (mul_le_mul_of_nonneg_right ?_ hp)
    norm_num

theorem score_trunc (a b : Nat) (h1 : 0 < b) (h2 : b ≤ a) (h3 : a ≤ 255) : (score (a - b) (a + b)).trunc = 100 * a / 255 := by
  by_cases hm : a % 51 = 0
  · have : a = 51 ∨ a = 102 ∨ a = 153 ∨ a = 204 ∨ a = 255 := by omega
    rcases this with rfl | rfl | rfl | rfl | rfl
    · exact row_use row_51 h1 h2
    · exact row_use row_102 h1 h2
    · exact row_use row_153 h1 h2
    · exact row_use row_204 h1 h2
    · exact row_use row_255 h1 h2
  · obtain ⟨p, q⟩ := score_close a b h2 h3
    obtain ⟨n, r, hr, e⟩ : ∃ n r, (1 ≤ r ∧ r ≤ 50) ∧ 20 * a = 51 * n + r := ⟨20 * a / 51, 20 * a % 51, by omega, by omega⟩
    have e1 : 100 * a / 255 = n := by omega
    rw [e1]
    have eq : (20 : ℚ) * a = 51 * n + r := by exact_mod_cast e
    have r1 : (1 : ℚ) ≤ r := by exact_mod_cast hr.1
    have r2 : (r : ℚ) ≤ 50 := by exact_mod_cast hr.2
    have ha : (a : ℚ) ≤ 255 := by exact_mod_cast h3
    apply trunc_eq
    · norm_num at p
      linarith
    · norm_num at q
      linarith

theorem flicker_eq (on off : BitVec 8) (h1 : on ≠ 0) (h2 : off ≠ 0) : flicker on off = 100 * max on.toNat off.toNat / 255 := by
  have p1 : 0 < on.toNat := by
    rcases Nat.eq_zero_or_pos on.toNat with h | h
    · exact absurd (BitVec.eq_of_toNat_eq (by simpa using h)) h1
    · exact h
  have p2 : 0 < off.toNat := by
    rcases Nat.eq_zero_or_pos off.toNat with h | h
    · exact absurd (BitVec.eq_of_toNat_eq (by simpa using h)) h2
    · exact h
  have l1 := on.isLt
  have l2 := off.isLt
  unfold flicker
  rw [if_neg h2, if_neg h1]
  rcases Nat.le_total on.toNat off.toNat with h | h
  · rw [show ((off.toNat : Int) - on.toNat).natAbs = off.toNat - on.toNat by omega, Nat.max_eq_right h]
    exact score_trunc _ _ p1 h (by omega)
  · rw [show ((off.toNat : Int) - on.toNat).natAbs = on.toNat - off.toNat by omega, Nat.max_eq_left h, Nat.add_comm]
    exact score_trunc _ _ p2 h (by omega)

theorem changed_true (ps : List Nat) (c : Nat × Nat) : changedLoop ps c true = true := by
  induction ps generalizing c with
  | nil => rfl
  | cons p ps ih =>
    unfold changedLoop
    split
    · rfl
    · split
      · rfl
      · split
        · exact ih _
        · split
          · exact ih _
          · exact ih _

theorem changedLoop_iff (ps : List Nat) (hp : ∀ p ∈ ps, 1 < p) (on off : Nat) :
    changedLoop ps (on, off) false = true ↔ (Modulator.factorLoop ps (on, off)).1 ≠ on ∧ (Modulator.factorLoop ps (on, off)).2 ≠ off := by
  induction ps generalizing on off with
  | nil => simp [changedLoop, Modulator.factorLoop]
  | cons p ps ih =>
    have hps : ∀ q ∈ ps, 1 < q := fun q hq => hp q (List.mem_cons_of_mem _ hq)
    have hp1 := hp p (List.mem_cons_self ..)
    unfold changedLoop Modulator.factorLoop
    split
    · simp
    · split
      · simp
      · split
        · exact ih hps on off
        · split
          · exact ih hps on off
          · rw [changed_true]
            have := Modulator.factorLoop_ratio ps (on / p) (off / p) (fun q hq => Nat.lt_of_lt_of_le (by decide) (hps q hq))
            have a := Nat.div_lt_self (n := on) (k := p) (by omega) hp1
            have b := Nat.div_lt_self (n := off) (k := p) (by omega) hp1
            constructor
            · intro _
              constructor <;> omega
            · intro _; rfl

theorem changedLoop_false (ps : List Nat) (on off : Nat) (h : changedLoop ps (on, off) false = false) : Modulator.factorLoop ps (on, off) = (on, off) := by
  induction ps generalizing on off with
  | nil => rfl
  | cons p ps ih =>
    unfold changedLoop at h
    unfold Modulator.factorLoop
    split
    · rfl
    · rename_i h1
      rw [if_neg h1] at h
      split
      · rfl
      · rename_i h2
        rw [if_neg h2] at h
        split
        · rename_i h3
          rw [if_pos h3] at h
          exact ih on off h
        · rename_i h3
          rw [if_neg h3] at h
          split
          · rename_i h4
            rw [if_pos h4] at h
            exact ih on off h
          · rename_i h4
            rw [if_neg h4, changed_true] at h
            cases h

end Diminuto.Flicker
