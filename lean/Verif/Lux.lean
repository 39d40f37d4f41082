import Mathlib.Algebra.Order.Field.Rat

/-!
# Model of the brightness that is computed from the channels of a light sensor

`avago_apds9301_rawtolux`, `Diminuto/fun/avago/apds9301.h:236-281`.  The arithmetic is that of rational numbers where every operation, and every constant of the source, is rounded by `rnd`;
`pow` is what `pow(3)` returns for the exponent 1.4.  Nothing overflows, and no result is so small that it is not rounded like others: the least that is not zero is above 10 to the -9.
-/

namespace Diminuto.Lux

/-- `avago_apds9301_rawtolux`, `Diminuto/fun/avago/apds9301.h:245-281`.  If the first channel is zero then the ratio is infinite or not a number, and none of the conditions is true. -/
def lux (rnd pow : Rat → Rat) (raw0 raw1 : Nat) : Rat :=
  let chan0 : Rat := raw0
  let chan1 : Rat := raw1
  if raw0 = 0 then 0
  else
    let ratio := rnd (chan1 / chan0)
    if ratio ≤ rnd (50 / 100) then rnd (rnd (rnd (304 / 10000) * chan0) - rnd (rnd (rnd (62 / 1000) * chan1) * pow ratio))
    else if rnd (50 / 100) < ratio ∧ ratio ≤ rnd (61 / 100) then rnd (rnd (rnd (224 / 10000) * chan0) - rnd (rnd (31 / 1000) * chan1))
    else if rnd (61 / 100) < ratio ∧ ratio ≤ rnd (80 / 100) then rnd (rnd (rnd (128 / 10000) * chan0) - rnd (rnd (153 / 10000) * chan1))
    else if rnd (80 / 100) < ratio ∧ ratio ≤ rnd (130 / 100) then rnd (rnd (rnd (146 / 100000) * chan0) - rnd (rnd (112 / 100000) * chan1))
    else 0

end Diminuto.Lux
