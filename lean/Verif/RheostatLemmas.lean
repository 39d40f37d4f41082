import Verif.RheostatSpec
import Mathlib.Tactic.NormNum

/-! # Lemmas about the tool that measures the voltage for every duty cycle -/

namespace Diminuto.Rheostat

/-- The state after `k` conversions that are not skipped. -/
def after (k : Nat) : State := ⟨4 - (k % 4 : Nat), 5 - (k / 4 % 5 : Nat), down (k / 20), if k / 20 = 0 then 1 else -1⟩

theorem step_after (k : Nat) (hk : k < 5120) : step false (after k) =
    (if k = 5119 then none else some (after (k + 1)), if k % 4 = 3 then some (down (k / 20)) else none, if k % 20 = 19 ∧ k ≠ 5119 then some (down (k / 20 + 1)) else none) := by
  unfold step after down
  simp only [Bool.false_eq_true, if_false]
  by_cases h3 : k % 4 = 3
  · rw [if_neg (show ¬ (4 - ((k % 4 : Nat) : Int) > 1) by omega), if_pos h3]
    by_cases h19 : k % 20 = 19
    · rw [if_neg (show ¬ (5 - ((k / 4 % 5 : Nat) : Int) > 1) by omega)]
      have e1 : (k + 1) / 20 = k / 20 + 1 := by omega
      have e3 : (k + 1) % 4 = 0 := by omega
      have e4 : (k + 1) / 4 % 5 = 0 := by omega
      rw [e1, e3, e4, if_neg (show ¬ k / 20 + 1 = 0 by omega)]
      by_cases h0 : k / 20 = 0
      · rw [h0]
        have : k = 19 := by omega
        subst this
        rfl
      · rw [if_neg h0, if_neg (show ¬ (255 - ((k / 20 : Nat) : Int) + -1 > 255) by omega)]
        by_cases hl : k = 5119
        · subst hl
          rfl
        · rw [if_neg (show ¬ (255 - ((k / 20 : Nat) : Int) + -1 < 0) by omega), if_neg hl, if_pos (show k % 20 = 19 ∧ k ≠ 5119 from ⟨h19, hl⟩)]
          have e5 : 255 - ((k / 20 : Nat) : Int) + -1 = 255 - ((k / 20 + 1 : Nat) : Int) := by omega
          rw [e5]
          rfl
    · have e1 : (k + 1) / 20 = k / 20 := by omega
      have e3 : (k + 1) % 4 = 0 := by omega
      have e4 : (k + 1) / 4 % 5 = k / 4 % 5 + 1 := by omega
      rw [if_pos (show 5 - ((k / 4 % 5 : Nat) : Int) > 1 by omega), if_neg (show ¬ k = 5119 by omega), if_neg (show ¬ (k % 20 = 19 ∧ k ≠ 5119) by omega), e1, e3, e4]
      have e5 : 5 - ((k / 4 % 5 : Nat) : Int) - 1 = 5 - ((k / 4 % 5 + 1 : Nat) : Int) := by omega
      rw [e5]
      rfl
  · have e1 : (k + 1) / 20 = k / 20 := by omega
    have e3 : (k + 1) % 4 = k % 4 + 1 := by omega
    have e4 : (k + 1) / 4 = k / 4 := by omega
    rw [if_pos (show 4 - ((k % 4 : Nat) : Int) > 1 by omega), if_neg (show ¬ k = 5119 by omega), if_neg h3, if_neg (show ¬ (k % 20 = 19 ∧ k ≠ 5119) by omega), e1, e3, e4]
    have e5 : 4 - ((k % 4 : Nat) : Int) - 1 = 4 - ((k % 4 + 1 : Nat) : Int) := by omega
    rw [e5]

/-- The lines of the conversions from `a` to `b`. -/
theorem range'_split (a b : Nat) (h : a < b) : List.range' a (b - a) = a :: List.range' (a + 1) (b - (a + 1)) := by
  have : b - a = (b - (a + 1)) + 1 := by omega
  rw [this, List.range'_succ]

theorem run_after (events : List Bool) (k : Nat) (hk : k < 5120) :
    (run (after k) events).1 = decide (5120 ≤ k + counted events) ∧
    (run (after k) events).2.1 = (List.range' (k / 4) (min (k + counted events) 5120 / 4 - k / 4)).map (fun m => down (m / 5)) ∧
    (run (after k) events).2.2 = (List.range' (k / 20) (min ((k + counted events) / 20) 255 - k / 20)).map (fun j => down (j + 1)) := by
  induction events generalizing k with
  | nil =>
    have e1 : min (k + 0) 5120 / 4 - k / 4 = 0 := by omega
    have e2 : min ((k + 0) / 20) 255 - k / 20 = 0 := by omega
    have e3 : ¬ 5120 ≤ k + 0 := by omega
    simp only [counted, List.count_nil, e1, e2, e3, run]
    simp
  | cons e events ih =>
    cases e with
    | true =>
      have c : counted (true :: events) = counted events := by simp [counted]
      rw [c]
      exact ih k hk
    | false =>
      have c : counted (false :: events) = counted events + 1 := by simp [counted]
      rw [c]
      unfold run
      rw [step_after k hk]
      by_cases hl : k = 5119
      · subst hl
        have e1 : min (5119 + (counted events + 1)) 5120 / 4 - 5119 / 4 = 1 := by omega
        have e2 : min ((5119 + (counted events + 1)) / 20) 255 - 5119 / 20 = 0 := by
          have : min ((5119 + (counted events + 1)) / 20) 255 ≤ 255 := Nat.min_le_right _ _
          have q : 5119 / 20 = 255 := by norm_num
          rw [q]
          exact Nat.sub_eq_zero_of_le this
        have e3 : 5120 ≤ 5119 + (counted events + 1) := by omega
        rw [e1, e2]
        exact ⟨(decide_eq_true e3).symm, rfl, rfl⟩
      · simp only [if_neg hl]
        obtain ⟨i1, i2, i3⟩ := ih (k + 1) (by omega)
        rw [i1, i2, i3]
        have ea : k + 1 + counted events = k + (counted events + 1) := by omega
        rw [ea]
        refine ⟨rfl, ?_, ?_⟩
        · by_cases h3 : k % 4 = 3
          · have e1 : (k + 1) / 4 = k / 4 + 1 := by omega
            rw [if_pos h3, e1, range'_split (k / 4) (min (k + (counted events + 1)) 5120 / 4) (by omega)]
            have e2 : k / 4 / 5 = k / 20 := by omega
            simp [e2]
          · have e1 : (k + 1) / 4 = k / 4 := by omega
            rw [if_neg h3, e1]
            rfl
        · by_cases h3 : k % 20 = 19
          · have e1 : (k + 1) / 20 = k / 20 + 1 := by omega
            rw [if_pos ⟨h3, hl⟩, e1, range'_split (k / 20) (min ((k + (counted events + 1)) / 20) 255) (by omega)]
            simp
          · have e1 : (k + 1) / 20 = k / 20 := by omega
            rw [if_neg (by omega), e1]
            rfl

end Diminuto.Rheostat
