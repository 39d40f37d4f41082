import Verif.Time

/-!
# Specification: Frequency and Time
-/

namespace Diminuto.Time

/-- The range of `int64_t`. -/
def Fits (x : Int) : Prop := -9223372036854775808 ≤ x ∧ x ≤ 9223372036854775807

/-- The military name of the time zone that is `h` hours ahead of UTC: A to M without J
to the east, N to Y to the west, Z in between. -/
def militaryZone (h : Int) : Char :=
  if h = 0 then 'Z'
  else if 1 ≤ h ∧ h ≤ 9 then Char.ofNat (64 + h.toNat)
  else if 10 ≤ h ∧ h ≤ 12 then Char.ofNat (65 + h.toNat)
  else if -12 ≤ h ∧ h ≤ -1 then Char.ofNat (77 + (-h).toNat)
  else 'J'

/-- What is needed of the C library: `timegm` undoes `gmtime_r`, and one second before the Epoch
is what it is. -/
def Libc.Inverse (c : Libc) : Prop :=
  (∀ s tm, c.gmtime s = some tm → c.timegm tm = some s) ∧
  (∀ tm, c.gmtime (-1) = some tm → tm = ⟨69, 11, 31, 23, 59, 59⟩)

/-- The Gregorian calendar: the date of a day counted from 1970-01-01. -/
def civil (z : Int) : Int × Int × Int :=
  let z := z + 719468
  let era := z / 146097
  let doe := z % 146097
  let yoe := (doe - doe / 1460 + doe / 36524 - doe / 146096) / 365
  let doy := doe - (365 * yoe + yoe / 4 - yoe / 100)
  let mp := (5 * doy + 2) / 153
  let m := if mp < 10 then mp + 3 else mp - 9
  (yoe + era * 400 + (if m ≤ 2 then 1 else 0), m, doy - (153 * mp + 2) / 5 + 1)

/-- The day of a date. -/
def days (y m d : Int) : Int :=
  let y := if m ≤ 2 then y - 1 else y
  let era := y / 400
  let yoe := y % 400
  let doy := (153 * (if m > 2 then m - 3 else m + 9) + 2) / 5 + d - 1
  let doe := yoe * 365 + yoe / 4 - yoe / 100 + doy
  era * 146097 + doe - 719468

/-- The C library functions in the Gregorian calendar without leap seconds. -/
def gregorian : Libc where
  gmtime s :=
    let c := civil (s / 86400)
    some ⟨c.1 - 1900, c.2.1 - 1, c.2.2, s % 86400 / 3600, s % 3600 / 60, s % 60⟩
  timegm tm :=
    some (days (tm.year + 1900) (tm.mon + 1) tm.mday * 86400 + tm.hour * 3600 + tm.min * 60 + tm.sec)

/-- The number of calls of `diminuto_time_logical` in a sequence. -/
def calls (l : List Call) : Nat := l.count .logical

/-- The number of calls of `diminuto_time_logical` before the last reset. -/
def beforeReset : List Call → Nat
  | [] => 0
  | c :: rest =>
    if .reset ∈ rest then (if c = .logical then 1 else 0) + beforeReset rest
    else 0

end Diminuto.Time
