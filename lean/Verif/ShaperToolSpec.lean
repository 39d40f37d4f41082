import Verif.ShaperTool

/-!
# Specification: the tool that shapes traffic
-/

namespace Diminuto.ShaperTool

open Diminuto.Fd (Source Sink)

/-- The bytes of the input up to the end of the file; failures in between are not the end. -/
def content : List Source → List Byte
  | [] => []
  | .eof :: _ => []
  | .error :: k => content k
  | .data [] :: _ => []
  | .data (b :: bs) :: k => b :: bs ++ content k

/-- A reader that takes what it is given, sooner or later: the kernel takes at least one byte of each write. -/
def Willing (output : List Sink) : Prop := ∀ e ∈ output, ∃ n, e = .room (n + 1)

/-- The bytes committed in a window. -/
def volume (u w : Nat) (commits : List (Nat × Nat)) : Nat := ((commits.filter fun e => decide (u ≤ e.1 ∧ e.1 ≤ u + w)).map Prod.snd).sum

/-- The state in which a run is. -/
def Outcome.state : Outcome → Option State
  | .exit _ s | .blocks s | .running s => some s
  | .undefined => none

/-- The clock does not go backwards, and the run takes less than 2 to the power of 64 ticks. -/
def Steady (w : World) : Prop := (∀ i j, i ≤ j → w.clock i ≤ w.clock j) ∧ ∀ i, w.clock i < w.clock 0 + 2 ^ 64

/-- The limits within which nothing overflows: blocks and bursts of four gigabytes, a jitter of eleven days, and memory of the size of a block. -/
structure Reasonable (o : Options) (memory : List Byte) : Prop where
  block : o.block ≠ 0 ∧ o.block.toNat ≤ 2 ^ 32
  burst : o.burst.toNat ≤ 2 ^ 32
  jitter : o.jitter.toNat ≤ 10 ^ 12
  memory : memory.length = o.block.toNat

end Diminuto.ShaperTool
