import Verif.Time

/-!
# Model of local time, and of the tools that tell the time

Of `Diminuto/src/diminuto_time.c` the clocks, the time zone, the daylight saving time and the local time, and the tools `Diminuto/bin/zulu.c`, `Diminuto/bin/juliet.c`, `Diminuto/bin/epochtime.c` and `Diminuto/bin/elapsedtime.c`.  As in the model of the
time, what is not defined is `none`.  The C library is what the functions of it return.
-/

namespace Diminuto.Zone

open Diminuto.Time

/-- `diminuto_time_generic`, `Diminuto/src/diminuto_time.c:35-49`, with what `clock_gettime(2)` stores, or nothing if it fails. -/
def generic (clock : Option (Int × Int)) : Option Int :=
  match clock with
  | some (sec, nsec) => seconds2ticks sec nsec 1000000000
  | none => some ERROR

/-- The time zone: the variables that `tzset(3)` sets, which are the seconds west of Greenwich and whether there is a daylight saving time at all, and `localtime_r(3)` with the flag for the daylight saving time; `Diminuto/src/diminuto_time.c:85-107`, `:117-136`. -/
structure Zone where
  timezone : Int
  daylight : Bool
  localtime : Int → Option (Tm × Int)

/-- `diminuto_time_timezone`, `Diminuto/src/diminuto_time.c:81-109`. -/
def timezone (z : Zone) : Option Int := (chk (-z.timezone)).bind fun west => seconds2ticks west 0 1

/-- `diminuto_time_daylightsaving`, `Diminuto/src/diminuto_time.c:111-148`. -/
def daylightsaving (z : Zone) (ticks : Int) : Option Int :=
  if z.daylight then
    (ticks2wholeseconds ticks).bind fun juliet =>
    match z.localtime juliet with
    | none => some ERROR
    | some (_, isdst) => seconds2ticks (if isdst ≠ 0 then 3600 else 0) 0 1
  else some 0

/-- `diminuto_time_juliet`, `Diminuto/src/diminuto_time.c:358-378`, with `diminuto_time_extract`, `:299-308`; the inner `none` is the error return. -/
def juliet (z : Zone) (ticks : Int) : Option (Option Fields) :=
  (separate ticks).map fun (seconds, fraction) =>
  (z.localtime seconds).map fun (tm, _) =>
  ⟨tm.year + 1900, tm.mon + 1, tm.mday, tm.hour, tm.min, tm.sec, fraction⟩

/-- What a tool comes to: a status and no line, or the date and the time with the offset, which are the sign, the hours and what is in the place of the minutes; or a number. -/
inductive Shown where
  | status (n : Nat)
  | stamp (f : Fields) (sign : Char) (hours minutes : Int)
  | number (n : Int)
deriving DecidableEq

/-- `main`, `Diminuto/bin/zulu.c:29-51`: the ticks are not signed, so that the first condition is never true, `:40`. -/
def zuluTool (c : Libc) (clock : Option (Int × Int)) : Option Shown :=
  (generic clock).bind fun t =>
  let ticks := BitVec.ofInt 64 t
  if ticks < 0 then some (.status 2)
  else
    (zulu c ticks.toInt).map fun r =>
    match r with
    | none => .status 3
    | some f => .stamp f '+' 0 0

/-- `main`, `Diminuto/bin/juliet.c:30-61`: neither the ticks nor the offset are signed, `:32-33`, and what is printed for the minutes is the remainder in seconds, `:52`.  The seconds are an `int`. -/
def julietTool (z : Zone) (clock : Option (Int × Int)) : Option Shown :=
  (generic clock).bind fun t =>
  let ticks := BitVec.ofInt 64 t
  if ticks < 0 then some (.status 2)
  else
    (timezone z).bind fun a =>
    (daylightsaving z ticks.toInt).bind fun b =>
    (chk (a + b)).bind fun o =>
    let offset := BitVec.ofInt 64 o
    (ticks2wholeseconds offset.toInt).bind fun s =>
    let second := BitVec.ofInt 32 s
    if second = BitVec.intMin 32 then none
    else
      let second := if second.toInt < 0 then -second.toInt else second.toInt
      (juliet z ticks.toInt).map fun r =>
      match r with
      | none => .status 3
      | some f => .stamp f (if offset < 0 then '-' else '+') (second.tdiv 3600) (second.tmod 3600)

/-- The units in a second, `Diminuto/bin/epochtime.c:42-54` and `Diminuto/bin/elapsedtime.c:42-54`: the argument, if there is one, as `strtoll(3)` converts it, which is the number and whether all of the argument has been used. -/
def argument (arg : Option (Int × Bool)) : Option Int :=
  match arg with
  | none => some 1
  | some (n, all) => if n ≤ 0 then none else if !all then none else some n

/-- `main`, `Diminuto/bin/epochtime.c:36-63` and `Diminuto/bin/elapsedtime.c:36-64`. -/
def unitsTool (arg : Option (Int × Bool)) (clock : Option (Int × Int)) : Option Shown :=
  match argument arg with
  | none => some (.status 1)
  | some units =>
    (generic clock).bind fun ticks =>
    if ticks = 0 then some (.status 2)
    else (ticks2units ticks units).map .number

end Diminuto.Zone
