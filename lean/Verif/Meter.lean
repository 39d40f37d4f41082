/-!
# Model of the meter

Models `Diminuto/src/diminuto_meter.c:17-97` and `Diminuto/inc/com/diag/diminuto/diminuto_meter.h:150-281`.

The rates are of the type `double`.  Finite values of it are rational numbers (`Rat`); how a rate is computed from a number of events and a
number of ticks (conversion, a multiplication by the frequency, a division, each rounded) is a parameter of the model, so that whatever is
proved does not depend on rounding.  (The result is finite: it is at most 2^64 times the frequency.)
-/

namespace Diminuto.Meter

/-- A `double` that is not a NaN and not negative infinity; `DIMINUTO_METER_ERROR` is infinity (`HUGE_VAL`),
`Diminuto/inc/com/diag/diminuto/diminuto_meter.h:38`. -/
inductive Double
  | finite (q : Rat)
  | infinite
  deriving DecidableEq

/-- `a > b` of doubles. -/
def Double.gt : Double → Double → Bool
  | .finite a, .finite b => b < a
  | .infinite, .finite _ => true
  | _, .infinite => false

/-- How `rate = events; rate *= diminuto_frequency(); rate /= interarrival;` is computed, `Diminuto/src/diminuto_meter.c:65-67` and
`:91-93`. -/
abbrev Rating := BitVec 64 → BitVec 64 → Rat

/-- `diminuto_meter_t`, `Diminuto/inc/com/diag/diminuto/diminuto_meter.h:63-70`. -/
structure Meter where
  start : BitVec 64
  last : BitVec 64
  peak : Double
  events : BitVec 64
  burst : BitVec 64
  count : BitVec 64
  deriving DecidableEq

/-- `diminuto_meter_reset`, `Diminuto/src/diminuto_meter.c:17-27`. -/
def reset (now : BitVec 64) : Meter := ⟨now, now, .finite 0, 0#64, 0#64, 0#64⟩

/-- `DIMINUTO_METER_OVERFLOW`, the greatest `size_t`. -/
def OVERFLOW : BitVec 64 := BitVec.allOnes 64

/-- `diminuto_meter_events`, `Diminuto/src/diminuto_meter.c:29-80`: the meter after it, and whether the result is zero. -/
def add (rate : Rating) (m : Meter) (now events : BitVec 64) : Meter × Bool :=
  if now < m.last then (m, false)
  else if events = 0#64 then ({ m with last := now }, true)
  else if m.count = 0#64 then ({ m with last := now, events := events, burst := events, count := 1#64 }, true)
  else if OVERFLOW - m.count < 1#64 then ({ m with last := now, count := OVERFLOW }, false)
  else if OVERFLOW - m.events < events then ({ m with last := now, events := OVERFLOW }, false)
  else if now = m.last then
    ({ m with peak := .infinite, last := now, events := m.events + events,
              burst := if events > m.burst then events else m.burst, count := m.count + 1#64 }, true)
  else
    let r : Double := .finite (rate events (now - m.last))
    ({ m with peak := if r.gt m.peak then r else m.peak, last := now, events := m.events + events,
              burst := if events > m.burst then events else m.burst, count := m.count + 1#64 }, true)

/-- `diminuto_meter_sustained`, `Diminuto/src/diminuto_meter.c:82-97`. -/
def sustained (rate : Rating) (m : Meter) : Double :=
  if m.events = 0#64 then .finite 0
  else if m.last ≤ m.start then .infinite
  else .finite (rate m.events (m.last - m.start))

/-- Calls of `diminuto_meter_events` one after another. -/
def run (rate : Rating) (m : Meter) : List (BitVec 64 × BitVec 64) → Meter × List Bool
  | [] => (m, [])
  | (now, events) :: rest =>
    let r := add rate m now events
    let q := run rate r.1 rest
    (q.1, r.2 :: q.2)

end Diminuto.Meter
