/-!
# Model of the Frequency and Time features

Models the inline functions of `Diminuto/inc/com/diag/diminuto/diminuto_frequency.h:81-184` and, of
`Diminuto/src/diminuto_time.c`, `diminuto_time_epoch`, `diminuto_time_separate`,
`diminuto_time_zulu`, `diminuto_time_zonename`, `diminuto_time_duration` and
`diminuto_time_logical`.  Tick counts are `int64_t`, here `Int`; every operation is range checked, and the
undefined behaviour of overflow and of division by zero is the result `none`.  C division is `Int.tdiv`.
-/

namespace Diminuto.Time

/-- Result of a signed 64-bit operation (`diminuto_sticks_t`,
`Diminuto/inc/com/diag/diminuto/diminuto_types.h:50`). -/
def chk (x : Int) : Option Int :=
  if -9223372036854775808 ≤ x ∧ x ≤ 9223372036854775807 then some x else none

/-- `x / y`, as at `Diminuto/inc/com/diag/diminuto/diminuto_frequency.h:106`. -/
def div? (x y : Int) : Option Int := if y = 0 then none else chk (x.tdiv y)

/-- `x % y`, undefined if the quotient is (`Diminuto/inc/com/diag/diminuto/diminuto_frequency.h:146`). -/
def mod? (x y : Int) : Option Int := (div? x y).map fun _ => x.tmod y

/-- `diminuto_frequency`, `Diminuto/inc/com/diag/diminuto/diminuto_frequency.h:70` and `:81-84`. -/
def frequency : Int := 1000000000

/-- `diminuto_frequency_ticks2units`, `Diminuto/inc/com/diag/diminuto/diminuto_frequency.h:100-108`. -/
def ticks2units (ticks hertz : Int) : Option Int :=
  if hertz > frequency then (div? hertz frequency).bind fun q => chk (ticks * q)
  else if hertz < frequency then (div? frequency hertz).bind fun q => div? ticks q
  else some ticks

/-- `diminuto_frequency_units2ticks`, `Diminuto/inc/com/diag/diminuto/diminuto_frequency.h:116-125`. -/
def units2ticks (units hertz : Int) : Option Int :=
  if hertz > frequency then (div? hertz frequency).bind fun q => div? units q
  else if hertz < frequency then (div? frequency hertz).bind fun q => chk (units * q)
  else some units

/-- `diminuto_frequency_ticks2wholeseconds`,
`Diminuto/inc/com/diag/diminuto/diminuto_frequency.h:132-135`. -/
def ticks2wholeseconds (ticks : Int) : Option Int := ticks2units ticks 1

/-- `diminuto_frequency_ticks2fractionalseconds`,
`Diminuto/inc/com/diag/diminuto/diminuto_frequency.h:144-147`. -/
def ticks2fractionalseconds (ticks hertz : Int) : Option Int :=
  (mod? ticks frequency).bind fun r => ticks2units r hertz

/-- `diminuto_frequency_seconds2ticks`,
`Diminuto/inc/com/diag/diminuto/diminuto_frequency.h:157-160`. -/
def seconds2ticks (whole fraction hertz : Int) : Option Int :=
  (units2ticks whole 1).bind fun a => (units2ticks fraction hertz).bind fun b => chk (a + b)

/-- `diminuto_frequency_roundup`, `Diminuto/inc/com/diag/diminuto/diminuto_frequency.h:168-172`. -/
def roundup (ticks hertz : Int) : Option Int :=
  (mod? ticks hertz).bind fun remainder =>
  if remainder = 0 then some ticks
  else (chk (ticks - remainder)).bind fun x =>
    (if ticks < 0 then chk (-hertz) else some hertz).bind fun y => chk (x + y)

/-- `diminuto_frequency_rounddown`, `Diminuto/inc/com/diag/diminuto/diminuto_frequency.h:180-184`. -/
def rounddown (ticks hertz : Int) : Option Int :=
  (mod? ticks hertz).bind fun remainder =>
  if remainder = 0 then some ticks else chk (ticks - remainder)

/-- `abs64`, `Diminuto/inc/com/diag/diminuto/diminuto_absolute.h:17-21`. -/
def abs64 (value : Int) : Option Int := if value < 0 then chk (-value) else some value

/-- `diminuto_time_separate`, `Diminuto/src/diminuto_time.c:261-284`: the whole seconds and the
fraction. -/
def separate (ticks : Int) : Option (Int × Int) :=
  (ticks2wholeseconds ticks).bind fun seconds =>
  (abs64 ticks).bind fun a =>
  (ticks2fractionalseconds a frequency).bind fun fraction =>
  if ticks ≥ 0 then some (seconds, fraction)
  else if fraction = 0 then some (seconds, fraction)
  else (chk (seconds - 1)).map fun seconds => (seconds, frequency - fraction)

/-- The results of `diminuto_time_duration`. -/
structure Duration where
  sign : Int
  day : Int
  hour : Int
  minute : Int
  second : Int
  tick : Int
  deriving DecidableEq, Repr

/-- `diminuto_time_duration`, `Diminuto/src/diminuto_time.c:407-433`, with no null pointers.  (The divisions
do not overflow, and the number of days fits in an `int`.) -/
def duration (ticks : Int) : Option Duration :=
  (if ticks < 0 then chk (-ticks) else some ticks).map fun t =>
  let sign := if ticks < 0 then -1 else 1
  let divisor := frequency * 60 * 60 * 24
  let day := t.tdiv divisor
  let t := t.tmod divisor
  let divisor := frequency * 60 * 60
  let hour := t.tdiv divisor
  let t := t.tmod divisor
  let divisor := frequency * 60
  let minute := t.tdiv divisor
  let t := t.tmod divisor
  let divisor := frequency
  ⟨sign, day, hour, minute, t.tdiv divisor, t.tmod divisor⟩

/-- `NAMES`, `Diminuto/src/diminuto_time.c:386-392`. -/
def NAMES : List Char :=
  ['Y', 'X', 'W', 'V', 'U', 'T', 'S', 'R', 'Q', 'P', 'O', 'N', 'Z', 'A', 'B', 'C', 'D', 'E', 'F', 'G',
   'H', 'I', 'K', 'L', 'M']

/-- `diminuto_time_zonename`, `Diminuto/src/diminuto_time.c:383-405`. -/
def zonename (ticks : Int) : Char :=
  let factor := frequency * 3600
  if ticks.tmod factor = 0 then
    let t := ticks.tdiv factor + 12
    if 0 ≤ t ∧ t < NAMES.length then NAMES.getD t.toNat 'J' else 'J'
  else 'J'

/-- The fields of `struct tm` that the code uses. -/
structure Tm where
  year : Int
  mon : Int
  mday : Int
  hour : Int
  min : Int
  sec : Int
  deriving DecidableEq, Repr

/-- The date and time fields of the interface, with the fraction. -/
structure Fields where
  year : Int
  month : Int
  day : Int
  hour : Int
  minute : Int
  second : Int
  tick : Int
  deriving DecidableEq, Repr

/-- The functions of the C library: `gmtime_r`, null being `none`, and `timegm`, an error with `errno` set
being `none`. -/
structure Libc where
  gmtime : Int → Option Tm
  timegm : Tm → Option Int

/-- `diminuto_time_zulu`, `Diminuto/src/diminuto_time.c:324-351`, with `diminuto_time_extract`,
`:299-308`; the inner `none` is the error return. -/
def zulu (c : Libc) (ticks : Int) : Option (Option Fields) :=
  (separate ticks).map fun (seconds, fraction) =>
  (c.gmtime seconds).map fun tm =>
  ⟨tm.year + 1900, tm.mon + 1, tm.mday, tm.hour, tm.min, tm.sec, fraction⟩

/-- `DIMINUTO_TIME_ERROR`, `Diminuto/inc/com/diag/diminuto/diminuto_time.h:86-95`. -/
def ERROR : Int := -9223372036854775808

/-- `diminuto_time_epoch`, `Diminuto/src/diminuto_time.c:150-248`; the subtractions from year and month are
not range checked. -/
def epoch (c : Libc) (f : Fields) (timezone daylightsaving : Int) : Option Int :=
  match c.timegm ⟨f.year - 1900, f.month - 1, f.day, f.hour, f.minute, f.second⟩ with
  | none => some ERROR
  | some seconds =>
    (seconds2ticks seconds 0 1).bind fun ticks =>
    if seconds = -1 ∧ ¬ (f.year = 1969 ∧ f.month = 12 ∧ f.day = 31 ∧ f.hour = 23 ∧ f.minute = 59 ∧
        f.second = 59) then some ERROR
    else
      (chk (ticks - timezone)).bind fun ticks =>
      (chk (ticks - daylightsaving)).bind fun ticks =>
      chk (ticks + f.tick)

/-- The static variables of the logical clock, `Diminuto/src/diminuto_time.c:435-437`; the error number is
zero or `EOVERFLOW`. -/
structure Logical where
  counter : BitVec 64
  overflow : Bool
  deriving DecidableEq

/-- The initial values, `Diminuto/src/diminuto_time.c:436-437`. -/
def Logical.init : Logical := ⟨0, false⟩

/-- `diminuto_time_logical`, `Diminuto/src/diminuto_time.c:439-457`: the value, whether `errno` is
`EOVERFLOW` (and not zero), and the new state.  The body is a critical section, hence atomic. -/
def logical (s : Logical) : BitVec 64 × Bool × Logical :=
  let result := s.counter
  let s := { s with counter := s.counter + 1 }
  if s.overflow then (result, true, s)
  else if s.counter = 0 then (result, false, { s with overflow := true })
  else (result, false, s)

/-- `diminuto_time_logical_reset`, `Diminuto/src/diminuto_time.c:459-464`. -/
def logicalReset (s : Logical) : Logical := { s with overflow := false }

/-- A call, by any thread, of `diminuto_time_logical` or of `diminuto_time_logical_reset`. -/
inductive Call
  | logical
  | reset
  deriving DecidableEq

/-- What a sequence of calls returns, and the state afterwards
(`Diminuto/src/diminuto_time.c:439-464`). -/
def logicalRun (s : Logical) : List Call → List (BitVec 64 × Bool) × Logical
  | [] => ([], s)
  | .logical :: rest =>
    let r := logical s
    let q := logicalRun r.2.2 rest
    ((r.1, r.2.1) :: q.1, q.2)
  | .reset :: rest => logicalRun (logicalReset s) rest

end Diminuto.Time
