/-!
# Model of the Modulator (software PWM) feature

Models `diminuto_modulator_factor`, `diminuto_modulator_set` and the timer
callback of `Diminuto/src/diminuto_modulator.c`.  All the cycle counters are
`uint8_t` holding values that never grow, so they are `Nat`.  Simplifications:
the user callback is assumed to succeed (return a positive value), and the timer
and condition variable are abstracted to "the callback is invoked once per timer
firing", so only the sequence of output states is modelled.
-/

namespace Diminuto.Modulator

/-- `PRIME`, `Diminuto/src/diminuto_modulator.c:52`. -/
def primes : List Nat := [2, 3, 5, 7, 11, 13]

/-- The loop of `diminuto_modulator_factor`,
`Diminuto/src/diminuto_modulator.c:60-74`: the remaining primes are tried in
order; a prime above either count ends the loop. -/
def factorLoop : List Nat → Nat × Nat → Nat × Nat
  | [], c => c
  | p :: ps, (on, off) =>
    if p > on then (on, off)
    else if p > off then (on, off)
    else if on % p > 0 then factorLoop ps (on, off)
    else if off % p > 0 then factorLoop ps (on, off)
    else factorLoop ps (on / p, off / p)

/-- `diminuto_modulator_factor`, `Diminuto/src/diminuto_modulator.c:51-77`
(the reduced counts; the flag it returns is unused by its caller). -/
def factor (c : Nat × Nat) : Nat × Nat := factorLoop primes c

/-- The fields of `diminuto_modulator_t`
(`Diminuto/inc/com/diag/diminuto/diminuto_modulator.h:123-137`) that determine
the output. -/
structure State where
  on : Nat
  off : Nat
  cycle : Nat
  ton : Nat
  toff : Nat
  state : Bool
  set : Bool
  deriving DecidableEq, Repr

/-- Lines 112-130 of `Diminuto/src/diminuto_modulator.c`: the on and off counts
computed for a duty cycle. -/
def counts (duty : Nat) : Nat × Nat :=
  let on := duty
  let off := 255 - duty
  if on = 0 then (on, off) else if off = 0 then (on, off) else factor (on, off)

/-- The shared-field update of `diminuto_modulator_set`,
`Diminuto/src/diminuto_modulator.c:140-143`. -/
def set (s : State) (duty : Nat) : State :=
  { s with ton := (counts duty).1, toff := (counts duty).2, set := true }

/-- `diminuto_modulator_init`, `Diminuto/src/diminuto_modulator.c:274-299`. -/
def init (duty : Nat) : State :=
  set { on := 0, off := 255, cycle := 0, ton := 0, toff := 255, state := false, set := false } duty

/-- One timer firing: `callback`, `Diminuto/src/diminuto_modulator.c:163-248`,
with a succeeding user function. -/
def callback (s : State) : State :=
  if s.cycle > 0 then { s with cycle := s.cycle - 1 }
  else
    let s := if s.set then { s with on := s.ton, off := s.toff, set := false } else s
    if s.state then
      if s.off > 0 then { s with cycle := s.off, state := false }
      else { s with cycle := s.on }
    else
      if s.on > 0 then { s with cycle := s.on, state := true }
      else { s with cycle := s.off }

/-- The state after `n` timer firings, `Diminuto/src/diminuto_modulator.c:163-248`. -/
def fire (s : State) : Nat → State
  | 0 => s
  | n + 1 => callback (fire s n)

end Diminuto.Modulator
