import Verif.Regulate
import Verif.AdcSpec
import Verif.LuxtoolSpec

/-! # What the tool that regulates a voltage should do -/

namespace Diminuto.Regulate

/-- A voltage that is within a little more than the greatest full scale of the converter. -/
def Sensed (v : Rat) : Prop := |v| ≤ 615 / 100

/-- The duty cycle of the modulator after those that were passed to it, if it was started with the first. -/
def lastDuty (duty : Int) (sets : List Int) : Int := sets.getLastD duty

/-- Every eighth of a list of which the first has the number `n`. -/
def eighths {α : Type} (n : Nat) (l : List α) : List α := ((l.zipIdx n).filter fun x => x.2 % 8 == 0).map (·.1)

/-- A controller of which the output is what it is given as the output the next time. -/
inductive Feedback (p : Controller.Params) (t : Int) : Controller.State → Int → List Int → Controller.State → Int → Prop where
  | nil (c : Controller.State) (o : Int) : Feedback p t c o [] c o
  | cons {c c' c'' : Controller.State} {o o' o'' i : Int} {l : List Int} : Controller.controller p c t i o = some (c', o') → Feedback p t c' o' l c'' o'' → Feedback p t c o (i :: l) c'' o''

end Diminuto.Regulate
