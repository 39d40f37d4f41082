import Verif.Illuminate
import Verif.LuxSpec
import Verif.LuxtoolSpec

/-! # What the tool that regulates a brightness should do -/

namespace Diminuto.Illuminate

/-- A brightness that is within a little more than the greatest one of the sensor. -/
def Sensed (v : Rat) : Prop := 0 ≤ v ∧ v ≤ 1993

/-- The duty cycle of the modulator after those that were passed to it, if it was started with the first. -/
def lastDuty (duty : Int) (sets : List Int) : Int := sets.getLastD duty

/-- Every fourth of a list of which the first has the number `n`. -/
def fourths {α : Type} (n : Nat) (l : List α) : List α := ((l.zipIdx n).filter fun x => x.2 % 4 == 0).map (·.1)

/-- A controller of which the output is what it is given as the output the next time. -/
inductive Feedback (p : Controller.Params) (t : Int) : Controller.State → Int → List Int → Controller.State → Int → Prop where
  | nil (c : Controller.State) (o : Int) : Feedback p t c o [] c o
  | cons {c c' c'' : Controller.State} {o o' o'' i : Int} {l : List Int} : Controller.controller p c t i o = some (c', o') → Feedback p t c' o' l c'' o'' → Feedback p t c o (i :: l) c'' o''

end Diminuto.Illuminate
