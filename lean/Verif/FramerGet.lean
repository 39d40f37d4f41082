import Verif.Framer

/-!
# Model of the questions that can be asked of a framer

`Diminuto/inc/com/diag/diminuto/diminuto_framer.h:295-463`.
-/

namespace Diminuto.Framer

/-- `diminuto_framer_iscomplete`, `Diminuto/inc/com/diag/diminuto/diminuto_framer.h:300-302`. -/
def isComplete (f : Framer) : Bool := f.state == .complete

/-- `diminuto_framer_isterminal`, `Diminuto/inc/com/diag/diminuto/diminuto_framer.h:312-325`. -/
def isTerminal (f : Framer) : Bool :=
  match f.state with
  | .complete | .final | .abort | .failed | .overflow | .invalid | .idle => true
  | _ => false

/-- `diminuto_framer_iserror`, `Diminuto/inc/com/diag/diminuto/diminuto_framer.h:336-347`. -/
def isError (f : Framer) : Bool :=
  match f.state with
  | .final | .abort | .failed | .overflow | .invalid => true
  | _ => false

/-- `diminuto_framer_getlength`, `Diminuto/inc/com/diag/diminuto/diminuto_framer.h:355-357`; `EOF` is `-1`. -/
def getLength (f : Framer) : Int := if isComplete f then f.length else -1

/-- `diminuto_framer_getbuffer`, `Diminuto/inc/com/diag/diminuto/diminuto_framer.h:365-367`: the memory of the buffer, or nothing for a null pointer. -/
def getBuffer (f : Framer) : Option (List Byte) := if isComplete f then some f.buffer else none

/-- `diminuto_framer_didrollover`, `Diminuto/inc/com/diag/diminuto/diminuto_framer.h:376-378`. -/
def didRollover (f : Framer) : Bool := f.previous == 65535#16 && f.sequence == 0#16

/-- `diminuto_framer_didfarend`, `Diminuto/inc/com/diag/diminuto/diminuto_framer.h:387-389`. -/
def didFarEnd (f : Framer) : Bool := f.previous != 65535#16 && f.sequence == 0#16

/-- `diminuto_framer_didnearend`, `Diminuto/inc/com/diag/diminuto/diminuto_framer.h:399-401`. -/
def didNearEnd (f : Framer) : Bool := f.previous == 65535#16 && f.sequence != 0#16

end Diminuto.Framer
