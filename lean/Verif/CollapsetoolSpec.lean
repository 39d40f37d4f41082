import Verif.Collapsetool
import Verif.EscapeGrammarSpec

/-!
# Specification: collapsing in place, and the tool (C173)
-/

namespace Diminuto.Collapsetool

open Escape

/-- What is to be written for an argument: what it means; but nothing if this begins with a nul. -/
def Writes (arg out : List Byte) : Prop := ∃ r, Denotes arg r ∧ out = if r.head? = some 0#8 then [] else r

/-- What is to be written for all of them, one after the other; those for which nothing is written are left out. -/
inductive All : List (List Byte) → List (List Byte) → Prop
  | nil : All [] []
  | skip {arg : List Byte} {args outs : List (List Byte)} (h : Writes arg []) (t : All args outs) : All (arg :: args) outs
  | cons {arg out : List Byte} {args outs : List (List Byte)} (h : Writes arg out) (h0 : out ≠ []) (t : All args outs) : All (arg :: args) (out :: outs)

/-- Pieces that are written until one is not written whole: the status and what has been written. -/
def written (w : Nat → List Byte → Nat) : Nat → List (List Byte) → Nat × List Byte
  | _, [] => (0, [])
  | n, out :: outs => if w n out = out.length then ((written w (n + 1) outs).1, out ++ (written w (n + 1) outs).2) else (1, out.take (w n out))

end Diminuto.Collapsetool
