import Verif.Modset

/-!
# Specification: changing the duty cycle of a modulator that runs
-/

namespace Diminuto.Modset

open Diminuto.Modulator (counts)

/-- The duty cycle that has been asked for last, or that of the beginning. -/
def wanted (first : Nat) : List Deed → Nat
  | [] => first
  | .asked _ d _ :: l => wanted d l
  | _ :: l => wanted first l

/-- A thread does nothing between. -/
def Quiet (t : Nat) (l : List Deed) : Prop := ∀ x ∈ l, x ≠ .returned t ∧ ∀ d w, x ≠ .asked t d w

end Diminuto.Modset
