/-!
# Specification of alarms and of transitions
-/

namespace Diminuto.Throttle

/-- A bucket has been seen full, and not empty since: each pair says whether it was empty, and whether it was full. -/
def Alarming (seen : List (Bool × Bool)) : Prop :=
  ∃ before full after, seen = before ++ full :: after ∧ full.2 = true ∧ full.1 = false ∧ ∀ x ∈ after, x.1 = false

/-- Something has become true that was not true before. -/
def Became (before after : Bool) : Prop := before = false ∧ after = true

end Diminuto.Throttle
