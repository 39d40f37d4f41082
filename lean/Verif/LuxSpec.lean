import Verif.Lux

/-! # What the brightness should be -/

namespace Diminuto.Lux

/-- Rounding to 53 bits: the relative error is at most two to the -53, and the order is kept. -/
structure Rounding (rnd : Rat → Rat) : Prop where
  near : ∀ x, 0 ≤ x → x - x / 2 ^ 53 ≤ rnd x ∧ rnd x ≤ x + x / 2 ^ 53
  mono : ∀ x y, x ≤ y → rnd x ≤ rnd y

/-- What is required of `pow(3)` for the exponent 1.4 and bases from zero to one half. -/
structure Power (pow : Rat → Rat) : Prop where
  bound : ∀ x, 0 ≤ x → x ≤ 51 / 100 → 0 ≤ pow x ∧ pow x ≤ x
  mono : ∀ x y, 0 ≤ x → x ≤ y → y ≤ 51 / 100 → pow x ≤ pow y

/-- In which of the ranges of the data sheet the channels are. -/
def band (c0 c1 : Nat) : Nat :=
  if c0 = 0 then 5 else if 2 * c1 ≤ c0 then 1 else if 100 * c1 ≤ 61 * c0 then 2 else if 5 * c1 ≤ 4 * c0 then 3 else if 10 * c1 ≤ 13 * c0 then 4 else 5

/-- The formulas of the data sheet; `p` is the ratio to the power of 1.4. -/
def formula (p : Rat) (c0 c1 : Nat) : Rat :=
  match band c0 c1 with
  | 1 => 304 / 10000 * c0 - 62 / 1000 * c1 * p
  | 2 => 224 / 10000 * c0 - 31 / 1000 * c1
  | 3 => 128 / 10000 * c0 - 153 / 10000 * c1
  | 4 => 146 / 100000 * c0 - 112 / 100000 * c1
  | _ => 0

end Diminuto.Lux
