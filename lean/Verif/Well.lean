import Verif.List
import Verif.Memory

/-!
# Model of the Well feature

Models `Diminuto/src/diminuto_well.c` on the model of the List feature.  A pointer to an
object is its address, a number; the null pointer that means failure is `none`.  An outer `none` is a
list operation that does not end.
-/

namespace Diminuto.Well

open Diminuto.DList

/-- A well of `M` objects, `Diminuto/inc/com/diag/diminuto/diminuto_well.h:29-39`: an array of list nodes of which the
first is the root of the free list, the second of the used list.  `data` are the data pointers. -/
structure Control (M : Nat) where
  heap : Heap (M + 2)
  data : Node (M + 2) → Nat

variable {M : Nat}

/-- `DIMINUTO_WELL_FREE`. -/
def FREE : Node (M + 2) := ⟨0, by omega⟩
/-- `DIMINUTO_WELL_USED`. -/
def USED : Node (M + 2) := ⟨1, by omega⟩

/-- `diminuto_list_datainit`,
`Diminuto/inc/com/diag/diminuto/diminuto_list.h:344-346`. -/
def datainit (w : Control M) (nodep : Node (M + 2)) (p : Nat) : Control M :=
  { heap := DList.init w.heap nodep
    data := fun x => if x = nodep then p else w.data x }

/-- `diminuto_list_insert` on the nodes of a well. -/
def insertAt (w : Control M) (rootp nodep : Node (M + 2)) : Option (Control M) :=
  (DList.insert w.heap rootp nodep).map fun h => { w with heap := h }

/-- `diminuto_list_remove` on the nodes of a well. -/
def removeAt (w : Control M) (nodep : Node (M + 2)) : Option (Control M) :=
  (DList.remove w.heap nodep).map fun h => { w with heap := h }

/-- The loop of `diminuto_well_init`, `Diminuto/src/diminuto_well.c:58-61`: for the nodes in the list. -/
def initLoop (size : Nat) : List (Node (M + 2)) → Nat → Control M → Option (Control M)
  | [], _, w => some w
  | n :: ns, data, w =>
    let w := datainit w n data
    (insertAt w (w.heap.prev FREE) n).bind fun w => initLoop size ns (data + size) w

/-- `diminuto_well_init`, `Diminuto/src/diminuto_well.c:23-68`, once the memory for control
and data has been allocated; `size` is already aligned (`objectSize`).  The memory of the
nodes, which the code initialises one after the other, is taken as initialised. -/
def init (M : Nat) (control data size : Nat) : Option (Control M) :=
  let w : Control M := ⟨fresh (M + 2), fun _ => 0⟩
  let w := datainit (datainit w FREE control) USED data
  initLoop size ((List.finRange M).map fun i => ⟨i.val + 2, by omega⟩) data w

/-- `diminuto_well_alloc`, `Diminuto/src/diminuto_well.c:76-96`.  `diminuto_list_remove` does not
return null. -/
def alloc (w : Control M) (wellp : Node (M + 2)) : Option (Control M × Option Nat) :=
  -- The array is indexed from the root: `&wellp[DIMINUTO_WELL_USED]` is the node after it.
  let wellp := w.heap.root wellp
  if wellp ≠ FREE then none
  else if ¬ isEmpty w.heap FREE then
    let nodep := w.heap.next FREE
    (removeAt w nodep).bind fun w =>
    (insertAt w (w.heap.prev USED) nodep).bind fun w => some (w, some (w.data nodep))
  else some (w, none)

/-- `diminuto_well_free`, `Diminuto/src/diminuto_well.c:98-118`: whether it succeeds. -/
def free (w : Control M) (wellp : Node (M + 2)) (pointer : Nat) : Option (Control M × Bool) :=
  let wellp := w.heap.root wellp
  if wellp ≠ FREE then none
  else if ¬ isEmpty w.heap USED then
    let nodep := w.heap.next USED
    (removeAt w nodep).bind fun w =>
    let w := datainit w nodep pointer
    (insertAt w (w.heap.prev FREE) nodep).bind fun w => some (w, true)
  else some (w, false)

/-- `diminuto_well_isfull`, `Diminuto/inc/com/diag/diminuto/diminuto_well.h:97-99`. -/
def isfull (w : Control M) : Bool := isEmpty w.heap USED

/-- `diminuto_well_isempty`, `Diminuto/inc/com/diag/diminuto/diminuto_well.h:106-108`. -/
def isempty (w : Control M) : Bool := isEmpty w.heap FREE

/-- A call. -/
inductive Op
  | alloc
  | free (pointer : Nat)
  deriving DecidableEq

/-- What a call returns. -/
inductive Res
  | pointer (p : Option Nat)
  | ok (b : Bool)
  deriving DecidableEq

/-- A call on the well. -/
def step (w : Control M) : Op → Option (Control M × Res)
  | .alloc => (alloc w FREE).map fun r => (r.1, .pointer r.2)
  | .free p => (free w FREE p).map fun r => (r.1, .ok r.2)

/-- A history of calls. -/
def run (w : Control M) : List Op → Option (Control M × List Res)
  | [] => some (w, [])
  | o :: os =>
    (step w o).bind fun (w, r) => (run w os).map fun (w, rs) => (w, r :: rs)

/-- The sizes that `diminuto_well_init` computes, `Diminuto/src/diminuto_well.c:45-52`: of an object, and
of the data area; the arguments that are zero have been replaced already. -/
def objectSize (size count align : BitVec 64) : Option (BitVec 64 × BitVec 64) :=
  (Memory.power align).map fun align =>
  let size := Memory.alignment size align
  (size, size * count)

end Diminuto.Well
