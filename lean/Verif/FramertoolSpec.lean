import Verif.Framertool
import Verif.FramerProps

/-!
# Specification of the tool that passes lines of text over a serial line

The format of frames is that of `IsFrame`.  The rest is what an observer of the device, of the standard input and of the standard output sees.
-/

namespace Diminuto.Framertool

open Framer

/-- The octets that have arrived on the device. -/
def arrived : List Event → List Byte
  | [] => []
  | .arrive octets :: r => octets ++ arrived r
  | _ :: r => arrived r

/-- The octets that have been typed on the standard input. -/
def typed : List Event → List Byte
  | [] => []
  | .type octets :: r => octets ++ typed r
  | _ :: r => typed r

/-- What has been written to the device, by frames. -/
def written (log : List Entry) : List (List Byte) :=
  log.filterMap fun e => match e with | .wrote o => some o | _ => none

/-- What has been written to the standard output, by frames. -/
def shown (log : List Entry) : List (List Byte) :=
  log.filterMap fun e => match e with | .printed o => some o | _ => none

/-- A text consists of whole lines and a rest, none of which has a newline other than that at the end of each line. -/
def Lines (text : List Byte) (lines : List (List Byte)) (rest : List Byte) : Prop :=
  text = (lines.map (· ++ [0x0a#8])).flatten ++ rest ∧ (∀ l ∈ lines, 0x0a#8 ∉ l) ∧ 0x0a#8 ∉ rest

/-- What is sent of a line with a buffer of a size: the line, cut to what fits, with its newline. -/
def message (size : Nat) (line : List Byte) : List Byte := line.take (size - 1) ++ [0x0a#8]

/-- A device and an output that take everything. -/
def willing : World := ⟨fun _ _ => none, fun _ _ => none⟩

end Diminuto.Framertool
