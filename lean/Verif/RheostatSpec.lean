import Verif.Rheostat

/-! # What the tool that measures the voltage for every duty cycle should do -/

namespace Diminuto.Rheostat

/-- Down from 255. -/
def down (j : Nat) : Int := 255 - j

/-- The number of conversions that are not skipped because the modulator is behind. -/
def counted (events : List Bool) : Nat := events.count false

end Diminuto.Rheostat
