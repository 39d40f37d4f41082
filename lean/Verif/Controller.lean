/-!
# Model of the Controller (PID) feature

Models `Diminuto/src/diminuto_controller.c:16-48` and `:104-243` with the types
of `Diminuto/inc/com/diag/diminuto/diminuto_controller.h:70-85` (`int16_t`
inputs, outputs and gain factors; `int32_t` intermediate values).  Values are
`Int`; every 32-bit signed operation is range checked and yields `none`
(undefined behaviour) on overflow.  Conversion of an out-of-range value to
`int16_t` is the implementation-defined two's-complement wrap.  Right shift of a
negative value is the arithmetic shift (implementation-defined, as in GCC).
-/

namespace Diminuto.Controller

/-- Result of a signed 32-bit operation; `none` is the undefined behaviour of
signed overflow (type `diminuto_controller_value_t`,
`Diminuto/inc/com/diag/diminuto/diminuto_controller.h:85`). -/
def chk (x : Int) : Option Int :=
  if -2147483648 ≤ x ∧ x ≤ 2147483647 then some x else none

/-- Conversion to `int16_t` (type `diminuto_controller_output_t`,
`Diminuto/inc/com/diag/diminuto/diminuto_controller.h:75`). -/
def wrap16 (x : Int) : Int := (x + 32768) % 65536 - 32768

/-- `diminuto_controller_gain_t`,
`Diminuto/inc/com/diag/diminuto/diminuto_controller.h:107-122`. -/
structure Gain where
  numerator : Int
  denominator : Int
  deriving DecidableEq, Repr

/-- `diminuto_controller_parameters_t`,
`Diminuto/inc/com/diag/diminuto/diminuto_controller.h:129-205`. -/
structure Params where
  windup : Int
  minimum : Int
  maximum : Int
  lower : Int
  upper : Int
  kp : Gain
  ki : Gain
  kd : Gain
  kc : Gain
  filter : Bool
  deriving DecidableEq, Repr

/-- `diminuto_controller_state_t`,
`Diminuto/inc/com/diag/diminuto/diminuto_controller.h:221` onwards. -/
structure State where
  sample : Int
  proportional : Int
  integral : Int
  differential : Int
  total : Int
  delta : Int
  previous : Int
  initialized : Bool
  deriving DecidableEq, Repr

/-- The parameters set by `diminuto_controller_init`,
`Diminuto/src/diminuto_controller.c:19-34`. -/
def defaultParams : Params :=
  { windup := 2147483647, minimum := -32768, maximum := 32767, lower := -32768, upper := 32767,
    kp := ⟨1, 1⟩, ki := ⟨1, 1⟩, kd := ⟨1, 1⟩, kc := ⟨1, 1⟩, filter := true }

/-- The state set by `diminuto_controller_init`,
`Diminuto/src/diminuto_controller.c:36-45`. -/
def initState : State := ⟨0, 0, 0, 0, 0, 0, 0, false⟩

/-- `apply_gain`, `Diminuto/src/diminuto_controller.c:104-122`.  C division
truncates towards zero. -/
def applyGain (value : Int) (g : Gain) : Option Int :=
  if g.denominator = 0 then some 2147483647
  else if g.numerator = 0 then some 0
  else if g.numerator = g.denominator then some value
  else if g.denominator = 1 then chk (value * g.numerator)
  else if g.numerator = 1 then chk (value.tdiv g.denominator)
  else do
    let v ← chk (value * g.numerator)
    chk (v.tdiv g.denominator)

/-- Lines 136-141 of `Diminuto/src/diminuto_controller.c`. -/
def prepare (s : State) (input : Int) : State :=
  if !s.initialized then
    { s with integral := 0, previous := input, sample := input, initialized := true }
  else s

/-- Lines 148-153 of `Diminuto/src/diminuto_controller.c`: the new sample. -/
def filtered (p : Params) (sample input : Int) : Option Int :=
  if p.filter then do
    let x ← chk (sample + input)
    some (x / 2)
  else some input

/-- Lines 175-181 of `Diminuto/src/diminuto_controller.c`: limiting the windup. -/
def limitWindup (windup integral : Int) : Option Int :=
  if integral > windup then some windup
  else do
    let m ← chk (-windup)
    if integral < m then some m else some integral

/-- Lines 217-223 of `Diminuto/src/diminuto_controller.c`. -/
def clamp (p : Params) (output : Int) : Int :=
  if output < p.minimum then p.minimum
  else if output > p.maximum then p.maximum
  else output

/-- Lines 234-240 of `Diminuto/src/diminuto_controller.c`. -/
def noFly (p : Params) (output : Int) : Int :=
  if p.minimum < output ∧ output < p.lower then p.minimum
  else if p.upper < output ∧ output < p.maximum then p.maximum
  else output

/-- `diminuto_controller`, `Diminuto/src/diminuto_controller.c:124-243`: the new
state and the returned output, or `none` on undefined behaviour. -/
def controller (p : Params) (s : State) (target input output : Int) : Option (State × Int) := do
  let s := prepare s input
  let sample ← filtered p s.sample input
  let proportional ← chk (target - sample)
  let total ← applyGain proportional p.kp
  let gi ← applyGain proportional p.ki
  let integral ← chk (s.integral + gi)
  let integral ← limitWindup p.windup integral
  let total ← chk (total + integral)
  let differential ← chk (sample - s.previous)
  let gd ← applyGain differential p.kd
  let total ← chk (total - gd)
  let delta ← applyGain total p.kc
  let sum ← chk (output + delta)
  let output := noFly p (clamp p (wrap16 sum))
  some ({ sample := sample, proportional := proportional, integral := integral,
          differential := differential, total := total, delta := delta,
          previous := sample, initialized := true }, output)

/-- Successive calls of `diminuto_controller`
(`Diminuto/src/diminuto_controller.c:124-243`), one per (target, input, output)
triple; the list of outputs returned. -/
def run (p : Params) (s : State) : List (Int × Int × Int) → Option (State × List Int)
  | [] => some (s, [])
  | (t, i, o) :: rest => do
    let (s', x) ← controller p s t i o
    let (s'', xs) ← run p s' rest
    some (s'', x :: xs)

end Diminuto.Controller
