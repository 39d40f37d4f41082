import Verif.Well
import Verif.ListProps
import Verif.MemoryProps
import Mathlib.Data.List.FinRange

/-!
# Specification: the Well
-/

namespace Diminuto.Well

open Diminuto.DList

variable {N : Nat}

/-- The specification: a queue of free objects and the number of those in use. -/
structure View where
  queue : List Nat
  used : Nat
  deriving DecidableEq

/-- What a call does: allocation takes the first of the queue and fails if there is none; freeing puts
the object last, and fails if none is in use. -/
def View.step (v : View) : Op → View × Res
  | .alloc =>
    match v.queue with
    | [] => (v, .pointer none)
    | p :: q => (⟨q, v.used + 1⟩, .pointer (some p))
  | .free p => if v.used = 0 then (v, .ok false) else (⟨v.queue ++ [p], v.used - 1⟩, .ok true)

/-- What a history of calls does. -/
def View.run (v : View) : List Op → View × List Res
  | [] => (v, [])
  | o :: os => ((View.run (v.step o).1 os).1, (v.step o).2 :: (View.run (v.step o).1 os).2)

/-- The addresses of the objects: `M` of them, `size` apart. -/
def objects (M data size : Nat) : List Nat := (List.range M).map fun i => data + i * size

/-- The objects that the application holds after a history, given those it held before; `none` if it
frees one that it does not hold. -/
def held (v : View) (h : List Nat) : List Op → Option (List Nat)
  | [] => some h
  | .alloc :: os =>
    held (v.step .alloc).1 (match v.queue with | [] => h | p :: _ => p :: h) os
  | .free p :: os => if p ∈ h then held (v.step (.free p)).1 (h.erase p) os else none

end Diminuto.Well
