import Verif.Spin
import Verif.SectionSpec

/-!
# What the Serialized Section feature is meant to do

The histories are those of `Verif/SectionSpec.lean`.
-/

namespace Diminuto.Spin
open Section (Body Thread)

variable {σ A L R : Type}

/-- Several steps of the process. -/
inductive Steps (m : Body σ A L R) (x : Sys σ A L R) : Sys σ A L R → Prop where
  | here : Steps m x x
  | step {y z : Sys σ A L R} : Steps m x y → Step m y z → Steps m x z

/-- The process before any of its threads has entered a section. -/
def start (todo : Nat → List (Bool × A)) (s : σ) : Sys σ A L R := ⟨fun t => ⟨todo t, none, [], false⟩, 0, s⟩

/-- No thread has been cancelled in a section. -/
def Uncancelled (x : Sys σ A L R) : Prop := ∀ t, (x.threads t).cancelled = false

/-- Whether any thread is in a section. -/
def Occupied (x : Sys σ A L R) : Prop := ∃ t, (x.threads t).running ≠ none

end Diminuto.Spin
