import Verif.Adc
import Verif.Controller
import Verif.Number
import Mathlib.Data.Rat.Floor

/-!
# Model of the tool that regulates a voltage

`Diminuto/fun/adccontroller.c:73-427`, over the models of the analog to digital converter and of the controller.  The files, the interrupt line and the signals are left out: the work loop is a function of the voltages that are
sensed, one for each interrupt.  The counters are natural numbers: that an `int` overflows after 2^31 interrupts is left out.
-/

namespace Diminuto.Regulate

/-- The parameters of the controller, `Diminuto/fun/adccontroller.c:95-108` and `Diminuto/fun/adccontroller.c:262-275`; `3300 / 256` is a quotient of integers. -/
def params : Controller.Params :=
  { windup := 3300, minimum := 0, maximum := 255, lower := 0, upper := 255, kp := ⟨1, 16⟩, ki := ⟨1, 16⟩, kd := ⟨1, 16⟩, kc := ⟨1, 3300 / 256⟩, filter := false }

/-- What the arguments ask for: the usage, a complaint about an argument, or to start with a target in millivolts and a duty cycle. -/
inductive Start where
  | usage
  | invalid (arg : List Byte)
  | start (debug : Bool) (target duty : Int)
deriving DecidableEq

/-- A number that is assigned to an `int16_t` and is not greater than a limit, `Diminuto/fun/adccontroller.c:196-204` and `Diminuto/fun/adccontroller.c:210-218`; `strtoul(3)` is that for 64 bits. -/
def number (arg : List Byte) (limit : Int) : Option Int :=
  if (Number.strtoull arg).2.1 ≠ [] then none
  else if Controller.wrap16 (Number.strtoull arg).1 > limit then none
  else some (Controller.wrap16 (Number.strtoull arg).1)

/-- The duty cycle, `Diminuto/fun/adccontroller.c:207-219`. -/
def duty (debug : Bool) (target : Int) : List (List Byte) → Start
  | [] => .start debug target 127
  | arg :: _ => match number arg 255 with | none => .invalid arg | some d => .start debug target d

/-- The target, `Diminuto/fun/adccontroller.c:193-206`. -/
def target (debug : Bool) : List (List Byte) → Start
  | [] => duty debug 2475 []
  | arg :: more => match number arg 6144 with | none => .invalid arg | some t => duty debug t more

/-- The arguments after the name of the program, `Diminuto/fun/adccontroller.c:178-219`. -/
def arguments (args : List (List Byte)) : Start :=
  match args with
  | [45#8, 63#8] :: _ => .usage
  | [45#8, 100#8] :: more => target true more
  | args => target false args

/-- Conversion of a `double` to an integer, towards zero (`Diminuto/fun/adccontroller.c:362`). -/
def trunc (x : Rat) : Int := if 0 ≤ x then ⌊x⌋ else ⌈x⌉

/-- The input of the controller for a voltage, `Diminuto/fun/adccontroller.c:362`; `none` is the undefined behaviour of a conversion to `int16_t` that does not fit. -/
def input (rnd : Rat → Rat) (adc : Rat) : Option Int :=
  let x := trunc (rnd (rnd (adc + 1 / 2) * 1000))
  if -32768 ≤ x ∧ x ≤ 32767 then some x else none

/-- The variables of the work loop, `Diminuto/fun/adccontroller.c:148-156`. -/
structure State where
  inputs : Nat
  outputs : Nat
  output : Int
  controller : Controller.State

/-- As the work loop begins, `Diminuto/fun/adccontroller.c:154-155` and `Diminuto/fun/adccontroller.c:260`. -/
def State.init (duty : Int) : State := ⟨0, 0, duty, Controller.initState⟩

/-- What is done for one interrupt after the voltage is sensed, `Diminuto/fun/adccontroller.c:362-388`: the state, and the duty cycle that is passed to the modulator if one is. -/
def step (rnd : Rat → Rat) (target : Int) (s : State) (adc : Rat) : Option (State × Option Int) :=
  match input rnd adc with
  | none => none
  | some i =>
    if (s.inputs + 1) % 8 ≠ 0 then some ({ s with inputs := s.inputs + 1 }, none)
    else match Controller.controller params s.controller target i s.output with
      | none => none
      | some (c, prime) =>
        if s.outputs = 0 ∨ s.output ≠ prime then some (⟨s.inputs + 1, s.outputs + 1, prime, c⟩, some prime)
        else some (⟨s.inputs + 1, s.outputs + 1, s.output, c⟩, none)

/-- The work loop, `Diminuto/fun/adccontroller.c:326-392`: the state, and the duty cycles that were passed to the modulator. -/
def run (rnd : Rat → Rat) (target : Int) (s : State) : List Rat → Option (State × List Int)
  | [] => some (s, [])
  | adc :: more =>
    match step rnd target s adc with
    | none => none
    | some (s, o) => match run rnd target s more with | none => none | some (s, l) => some (s, o.toList ++ l)

end Diminuto.Regulate
