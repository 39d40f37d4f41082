import Verif.FramerAbort

/-!
# Specification: aborting a frame (C179)
-/

namespace Diminuto.Framer

/-- The payloads that are returned by calling the function that reads a frame again and again, until the end of the stream. -/
inductive Reads (buffer : List Byte) (size : Nat) : List Byte → List (List Byte) → Prop
  | eof {stream : List Byte} {g : Framer} : read stream buffer size = some (.eof g) → Reads buffer size stream []
  | frame {stream : List Byte} {g : Framer} {rest : List Byte} {payloads : List (List Byte)} : read stream buffer size = some (.frame g rest) → Reads buffer size rest payloads →
      Reads buffer size stream (g.buffer.take g.length :: payloads)

end Diminuto.Framer
