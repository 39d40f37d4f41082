import Verif.Observation

/-!
# Specification: the Observation (C42)
-/

namespace Diminuto.Observation

/-- The specification: the path has what was written to the observation committed last, or else what it had before. -/
def expected (old : Option (List Byte)) (s : State) : Option (List Byte) :=
  match s.commits with
  | [] => old
  | o :: _ => some (s.written o)

end Diminuto.Observation
