import Verif.Shaperbuffered
import Verif.ShaperToolSpec

/-!
# Specification: the tool that shapes traffic with the functions of the C library
-/

namespace Diminuto.Shaperbuffered

/-- The bytes of the standard input; failures in between are not the end. -/
def bytes : List (Option Byte) → List Byte
  | [] => []
  | none :: r => bytes r
  | some b :: r => b :: bytes r

/-- The state in which a run is. -/
def Outcome.state : Outcome → Option State
  | .exit _ s | .running s => some s
  | .undefined => none

/-- What goes through the mode unharmed: lines have no zero bytes in them, and there is room for at least one byte and the terminating zero, and not for more than an `int` can say. -/
def Suits (m : Mode) (block : BitVec 64) (stdin : List (Option Byte)) : Prop := m = .line → 0#8 ∉ bytes stdin ∧ 2 ≤ block.toNat ∧ block.toNat < 2 ^ 31

/-- The clock does not go backwards, and the run takes less than 2 to the power of 64 ticks. -/
def Steady (w : World) : Prop := (∀ i j, i ≤ j → w.clock i ≤ w.clock j) ∧ ∀ i, w.clock i < w.clock 0 + 2 ^ 64

/-- The limits within which nothing overflows: blocks and bursts of four gigabytes, and a jitter of eleven days. -/
structure Reasonable (o : ShaperTool.Options) : Prop where
  block : o.block ≠ 0 ∧ o.block.toNat ≤ 2 ^ 32
  burst : o.burst.toNat ≤ 2 ^ 32
  jitter : o.jitter.toNat ≤ 10 ^ 12

end Diminuto.Shaperbuffered
