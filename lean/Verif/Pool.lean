import Verif.List

/-!
# Model of the Pool feature

Models `Diminuto/src/diminuto_pool.c` on the model of the List feature: there are `N` list nodes, some
of which are pools, some the links of objects, some belong to lists of the application.  A
pointer to an object stands for its link.  `malloc` is an argument: what it returns.  The
result `none` is undefined behaviour (`free` of something that is not allocated) or a loop that does not end.
-/

namespace Diminuto.Pool

open Diminuto.DList

/-- The memory: the nodes, their data pointers (of an object: its pool), and which objects are allocated
from the heap. -/
structure State (N : Nat) where
  heap : Heap N
  data : Node N → Node N
  live : Node N → Bool

variable {N : Nat}

/-- `diminuto_pool_alloc`, `Diminuto/src/diminuto_pool.c:37-56`; `m` is what `malloc` returns if it
is called, which has to be something that is not allocated. -/
def alloc (s : State N) (poolp : Node N) (m : Option (Node N)) : Option (State N × Option (Node N)) :=
  let poolp := s.heap.root poolp
  if isEmpty s.heap poolp then
    match m with
    | none => some (s, none)
    | some nodep =>
      if s.live nodep then none
      else
        some ({ heap := DList.init s.heap nodep
                data := fun x => if x = nodep then poolp else s.data x
                live := fun x => if x = nodep then true else s.live x }, some nodep)
  else
    let nodep := s.heap.next poolp
    (DList.remove s.heap nodep).map fun h => ({ s with heap := h }, some nodep)

/-- `diminuto_pool_free`, `Diminuto/src/diminuto_pool.c:58-66`. -/
def free (s : State N) (nodep : Node N) : Option (State N) :=
  let poolp := s.heap.root (s.data nodep)
  (DList.insert s.heap (s.heap.prev poolp) nodep).map fun h => { s with heap := h }

/-- `diminuto_heap_free` of an object: it has to be allocated. -/
def heapFree (s : State N) (nodep : Node N) : Option (State N) :=
  if s.live nodep then some { s with live := fun x => if x = nodep then false else s.live x } else none

/-- The loop of `diminuto_pool_fini`, `Diminuto/src/diminuto_pool.c:30-32`. -/
def finiLoop (poolp : Node N) : Nat → State N → Option (State N)
  | 0, _ => none
  | fuel + 1, s =>
    if ¬ isEmpty s.heap poolp then
      let nodep := s.heap.next poolp
      (DList.remove s.heap nodep).bind fun h =>
      (heapFree { s with heap := h } nodep).bind fun s => finiLoop poolp fuel s
    else some s

/-- `diminuto_pool_fini`, `Diminuto/src/diminuto_pool.c:27-35`. -/
def fini (s : State N) (poolp : Node N) : Option (State N) := finiLoop (s.heap.root poolp) (N + 1) s

/-- What the application does: calls, and putting an object that it holds on a list of its own
(`Diminuto/inc/com/diag/diminuto/diminuto_pool.h:28-39`). -/
inductive Op (N : Nat)
  | alloc (poolp : Node N) (m : Option (Node N))
  | free (nodep : Node N)
  | fini (poolp : Node N)
  | link (rootp nodep : Node N)

/-- A call: the state, and the object if one is returned. -/
def step (s : State N) : Op N → Option (State N × Option (Node N))
  | .alloc p m => alloc s p m
  | .free n => (free s n).map fun s => (s, none)
  | .fini p => (fini s p).map fun s => (s, none)
  | .link r n => (DList.insert s.heap r n).map fun h => ({ s with heap := h }, none)

/-- A history of calls. -/
def run (s : State N) : List (Op N) → Option (State N × List (Option (Node N)))
  | [] => some (s, [])
  | o :: os => (step s o).bind fun (s, r) => (run s os).map fun (s, rs) => (s, r :: rs)

/-- Pools that have just been initialised, and no objects: `diminuto_pool_init`,
`Diminuto/src/diminuto_pool.c:18-25`.  (The data pointer of a pool is its allocation size, which plays
no part here.) -/
def start (N : Nat) : State N := ⟨fresh N, id, fun _ => false⟩

/-- The allocation size that `diminuto_pool_init` computes, `Diminuto/src/diminuto_pool.c:22`; a list node has
32 bytes. -/
def allocation (size : BitVec 64) : BitVec 64 := (32 + size + 8 - 1) &&& ~~~(8 - 1)

end Diminuto.Pool
