import Verif.Zone
import Verif.TimeSpec

/-!
# Specification: local time
-/

namespace Diminuto.Zone

open Diminuto.Time

/-- The C library tells the local time: that of the second by so many seconds later, by the calendar. -/
def Honest (c : Libc) (z : Zone) (offset : Int → Int) : Prop := ∀ s, (z.localtime s).map Prod.fst = c.gmtime (s + offset s)

/-- A zone as the code has it: an hour is added in the summer, and the rest does not change. -/
structure Regular (c : Libc) (z : Zone) (summer : Int → Bool) : Prop where
  west : -86400 ≤ z.timezone ∧ z.timezone ≤ 86400
  local_ : ∀ s, z.localtime s = (c.gmtime (s + (-z.timezone + if summer s then 3600 else 0))).map fun tm => (tm, if summer s then 1 else 0)
  never : z.daylight = false → ∀ s, summer s = false

/-- Times of the years from 1684 to 2255. -/
def Common (t : Int) : Prop := -9000000000000000000 ≤ t ∧ t ≤ 9000000000000000000

/-- The sign, the hours and the minutes of an offset in seconds, if it is one of whole minutes. -/
def Iso (o : Int) (sign : Char) (hours minutes : Int) : Prop :=
  0 ≤ hours ∧ 0 ≤ minutes ∧ minutes < 60 ∧ (sign = '+' ∧ 0 ≤ o ∧ o = hours * 3600 + minutes * 60 ∨ sign = '-' ∧ o < 0 ∧ -o = hours * 3600 + minutes * 60)

/-- The reading of a clock: seconds since the Epoch, and nanoseconds, less than one second. -/
def Reading (clock : Option (Int × Int)) (t : Int) : Prop := ∃ sec nsec, clock = some (sec, nsec) ∧ 0 ≤ nsec ∧ nsec < 1000000000 ∧ t = sec * 1000000000 + nsec

end Diminuto.Zone
