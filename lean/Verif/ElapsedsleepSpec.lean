import Verif.Elapsedsleep
import Verif.NumberSpec
import Verif.DelaySpec

/-!
# Specification: the tool that sleeps (C176)
-/

namespace Diminuto.Elapsedsleep

/-- A text is a number and nothing else, or empty, with its value as a signed number of 64 bits: one that is too large or too small is the nearest. -/
def Says (t : List Byte) (v : Int) : Prop :=
  (t = [] ∧ v = 0) ∨ ∃ negative n, Number.Reads t negative n [] ∧ v = if negative then max (-(n : Int)) (-2 ^ 63) else min (n : Int) (2 ^ 63 - 1)

/-- The delay that the arguments ask for, and its units, if they are accepted: the delay is zero and the units are one per second if they are not there. -/
structure Asks (args : List (List Byte)) (delay units : Int) : Prop where
  delay : match args with
    | [] => delay = 0
    | t :: _ => Says t delay ∧ 0 ≤ delay
  units : match args with
    | _ :: t :: _ => Says t units ∧ 0 < units
    | _ => units = 1

/-- The state is one in which a signal has just ended a call of `nanosleep(2)`. -/
def Interrupted {σ : Type} (w : Delay.World σ) (s' : σ) : Prop := ∃ t s r, w.nanosleep t s = (.interrupted r, s')

end Diminuto.Elapsedsleep
