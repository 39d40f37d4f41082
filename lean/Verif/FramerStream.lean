import Verif.Framer

/-!
# Model of reading frames from a buffered stream

Models a call of `diminuto_framer_reader`, `Diminuto/src/diminuto_framer.c:774-843`, for the tools that wait for a descriptor and then call it once: octets are taken from the buffer of the stream, which is filled by one `read(2)` if it is
empty, until a frame is complete or the buffer is empty (`diminuto_file_ready`, `Diminuto/inc/com/diag/diminuto/diminuto_file.h:52-55`).
-/

namespace Diminuto.Framer

/-- A turn of the loop for an octet, `Diminuto/src/diminuto_framer.c:789-832`: the framer, and whether the result is `total`, because a frame that is not empty is complete. -/
def turn (f : Framer) (ch : Byte) : Option (Framer × Bool) :=
  (machineByte f ch).map fun g =>
    match g.state with
    | .complete => if g.length = 0 then (reset g, false) else (g, true)
    | .abort | .failed | .overflow | .invalid => (reset g, false)
    | _ => (g, false)

/-- The loop over the octets that are in the buffer of the stream, `Diminuto/src/diminuto_framer.c:781-834`: the framer, whether a frame is complete, and what is left in the buffer. -/
def pull : Framer → List Byte → Option (Framer × Bool × List Byte)
  | f, [] => some (f, false, [])
  | f, c :: r =>
    match turn f c with
    | none => none
    | some (g, true) => some (g, true, r)
    | some (g, false) => pull g r

/-- What a call does: the end of the stream (or an error, which is the same to the framer), undefined behaviour, or octets have been taken. -/
inductive Called where
  | undefined
  | ended
  | taken (f : Framer) (complete : Bool) (buffer line : List Byte)

/-- `diminuto_framer_reader`, `Diminuto/src/diminuto_framer.c:774-843`.  `buffer` is that of the stream, `line` has what can be read from the descriptor; `n` is the number of octets that `read(2)` returns, if it is called. -/
def reader (f : Framer) (buffer line : List Byte) (n : Nat) : Called :=
  let b := if buffer = [] then line.take n else buffer
  let l := if buffer = [] then line.drop n else line
  if b = [] then .ended
  else
    match pull f b with
    | none => .undefined
    | some (g, complete, rest) => .taken g complete rest l

end Diminuto.Framer
