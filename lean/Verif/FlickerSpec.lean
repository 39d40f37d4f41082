import Mathlib.Algebra.Order.Field.Rat

/-! # What the score of the cycles of a modulator should be -/

namespace Diminuto.Flicker

/-- The percentage of the greater of the two counts in the whole cycle of 255, exactly. -/
def percentage (on off : Nat) : ℚ := 100 * (if on ≤ off then (off : ℚ) else on) / 255

/-- A number of percent that is not below zero, with its fraction dropped. -/
def Percent (n : Nat) (p : ℚ) : Prop := (n : ℚ) ≤ p ∧ p < n + 1

end Diminuto.Flicker
