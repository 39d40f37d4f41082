import Verif.Dumptool
import Verif.DumpSpec

/-!
# Specification: the tool that dumps files (C172)
-/

namespace Diminuto.Dumptool

open Dump

/-- The lines of a dump of sixteen bytes each, in lower case, without indentation, with dots. -/
def lineFormat : Format := ⟨false, 46#8, 0, 4#64, 4#64, [58#8, 32#8], [32#8], [124#8], 32#8, 32#8, [124#8, 10#8]⟩

/-- The dump of data from address zero: a line for every sixteen bytes. -/
def whole (data : List Byte) : List Byte := (List.range ((data.length + 15) / 16)).flatMap fun i => showLine lineFormat 0 data (16 * i)

/-- A stream without errors. -/
def plain (data : List Byte) : List Event := data.map .byte

/-- The bytes of a stream. -/
def bytesOf (s : List Event) : List Byte := s.filterMap fun e => match e with
  | .byte b => some b
  | _ => none

/-- The lines that show data from any address. -/
def shown (start : Nat) (data : List Byte) : List Byte := showLines lineFormat start data (start / 16 * 16) ((start + data.length + 15) / 16 - start / 16)

/-- Pieces that are shown one after the other. -/
def pieces (start : Nat) : List (List Byte) → List Byte
  | [] => []
  | p :: ps => shown start p ++ pieces (start + p.length) ps

/-- The contents that the names stand for: the standard input is read by the first `-`. -/
def inputs (w : List Byte → Option (List Byte)) : List (List Byte) → List Byte → List (Option (List Byte))
  | [], _ => []
  | name :: names, stdin => if name = [45#8] then some stdin :: inputs w names [] else w name :: inputs w names stdin

end Diminuto.Dumptool
