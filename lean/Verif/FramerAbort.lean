import Verif.Framer

/-!
# Model of aborting a frame

`Diminuto/src/diminuto_framer.c:742-770`.
-/

namespace Diminuto.Framer

/-- `diminuto_framer_abort`, `Diminuto/src/diminuto_framer.c:742-770`: the result and the octets given to the stream, where `fwrite(3)` takes at most so many of the octets and `fflush(3)` succeeds or not.  `EOF` is `-1`. -/
def abort (taken : Nat) (flushes : Bool) : Int × List Byte :=
  if taken < 2 then (-1, [ESCAPE, FLAG].take taken)
  else if flushes then (2, [ESCAPE, FLAG])
  else (-1, [ESCAPE, FLAG])

end Diminuto.Framer
