import Verif.Metertool
import Verif.MeterSpec
import Verif.ShaperToolSpec

/-!
# Specification: the tool that measures what goes through it

The bytes of the input, and the reader that takes what it is given, are those of the tool that shapes traffic.
-/

namespace Diminuto.Metertool

open Diminuto.Fd (Source Sink)
open Diminuto.ShaperTool (content Willing)

/-- The state in which a run is. -/
def Outcome.state : Outcome → Option State
  | .exit _ s | .blocks s | .running s => some s
  | .undefined => none

/-- The clock does not go back. -/
def Steady (w : World) : Prop := ∀ i j, i ≤ j → w.clock i ≤ w.clock j

/-- A signal that is to end the tool has come. -/
def Told (w : World) : Prop := ∃ i g, (g ∈ w.arrives i ∨ g ∈ w.interrupts i) ∧ g ≠ .hup

end Diminuto.Metertool
