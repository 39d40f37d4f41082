import Mathlib.Data.Fin.Basic

/-!
# Model of the List feature

Models `Diminuto/src/diminuto_list.c` and the inline functions of
`Diminuto/inc/com/diag/diminuto/diminuto_list.h`.  There are `N` list nodes for any
`N`; a pointer to a node is its number, and the heap gives the three pointers
of each.  Pointers are never null: every node is initialised.  The data
pointer, which no operation but `apply` looks at, is left out, and so is logging.

A loop that walks pointers visits at most `N` nodes before it repeats itself, and
the loops here depend on nothing but the node they have reached, so a loop that has not
ended after `N` steps never ends; that is the result `none`.
-/

namespace Diminuto.DList

/-- A pointer to one of `N` nodes. -/
abbrev Node (N : Nat) := Fin N

/-- The nodes, `diminuto_list_t`,
`Diminuto/inc/com/diag/diminuto/diminuto_list.h:101-106`, without `data`. -/
structure Heap (N : Nat) where
  next : Node N → Node N
  prev : Node N → Node N
  root : Node N → Node N

/-- Assign one pointer. -/
def upd {N : Nat} (f : Node N → Node N) (a b : Node N) : Node N → Node N :=
  fun x => if x = a then b else f x

variable {N : Nat}

/-- `nodep->next = p`. -/
def Heap.setNext (h : Heap N) (nodep p : Node N) : Heap N := { h with next := upd h.next nodep p }
/-- `nodep->prev = p`. -/
def Heap.setPrev (h : Heap N) (nodep p : Node N) : Heap N := { h with prev := upd h.prev nodep p }
/-- `nodep->root = p`. -/
def Heap.setRoot (h : Heap N) (nodep p : Node N) : Heap N := { h with root := upd h.root nodep p }

/-- `diminuto_list_init`, `Diminuto/inc/com/diag/diminuto/diminuto_list.h:267-272`. -/
def init (h : Heap N) (nodep : Node N) : Heap N :=
  ((h.setNext nodep nodep).setPrev nodep nodep).setRoot nodep nodep

/-- All `N` nodes having been initialised, whatever they held. -/
def fresh (N : Nat) : Heap N := { next := fun x => x, prev := fun x => x, root := fun x => x }

/-- The loop of `reroot`, `Diminuto/src/diminuto_list.c:34-40`. -/
def rerootLoop (firstp lastp rootp : Node N) : Nat → Node N → Heap N → Option (Heap N)
  | 0, _, _ => none
  | fuel + 1, nextp, h =>
    let h := h.setRoot nextp rootp
    if nextp = lastp then some h
    else if h.next nextp = firstp then some h
    else rerootLoop firstp lastp rootp fuel (h.next nextp) h

/-- `reroot`, `Diminuto/src/diminuto_list.c:27-43`. -/
def reroot (h : Heap N) (firstp lastp rootp : Node N) : Option (Heap N) :=
  rerootLoop firstp lastp rootp N firstp h

/-- `diminuto_list_reroot`, `Diminuto/src/diminuto_list.c:45-49`; it returns `nodep`. -/
def rerootAll (h : Heap N) (nodep : Node N) : Option (Heap N) :=
  reroot h nodep (h.prev nodep) nodep

/-- `diminuto_list_remove`, `Diminuto/src/diminuto_list.c:51-64`; it returns `nodep`. -/
def remove (h : Heap N) (nodep : Node N) : Option (Heap N) :=
  if nodep ≠ h.next nodep then
    (if nodep = h.root nodep then reroot h (h.next nodep) (h.prev nodep) (h.next nodep)
     else some h).bind fun h =>
    let h := h.setPrev (h.next nodep) (h.prev nodep)
    let h := h.setNext (h.prev nodep) (h.next nodep)
    some (init h nodep)
  else some h

/-- `diminuto_list_insert`, `Diminuto/src/diminuto_list.c:66-78`; it returns `nodep`. -/
def insert (h : Heap N) (rootp nodep : Node N) : Option (Heap N) :=
  (remove h nodep).bind fun h =>
  let h := h.setNext nodep (h.next rootp)
  let h := h.setPrev nodep rootp
  let h := h.setPrev (h.next rootp) nodep
  let h := h.setNext rootp nodep
  some (h.setRoot nodep (h.root rootp))

/-- The loop of `diminuto_list_cut`, `Diminuto/src/diminuto_list.c:91-98`, which looks
for the root among the nodes to be cut; `nodep` is the node before the next one
to look at.  The result is whether it is found. -/
def cutLoop (h : Heap N) (rootp lastp : Node N) : Nat → Node N → Option Bool
  | 0, _ => none
  | fuel + 1, nodep =>
    if h.next nodep = rootp then some true
    else if h.next nodep = lastp then some false
    else cutLoop h rootp lastp fuel (h.next nodep)

/-- `diminuto_list_cut`, `Diminuto/src/diminuto_list.c:80-107`; it returns `firstp`. -/
def cut (h : Heap N) (firstp lastp : Node N) : Option (Heap N) :=
  if h.root firstp ≠ h.root lastp then some h
  else if h.prev firstp = lastp then some h
  else if firstp = lastp then remove h firstp
  else
    (cutLoop h (h.root firstp) lastp N (h.prev firstp)).bind fun found =>
    (if found then reroot h (h.next lastp) (h.prev firstp) (h.next lastp) else some h).bind fun h =>
    let h := h.setNext (h.prev firstp) (h.next lastp)
    let h := h.setPrev (h.next lastp) (h.prev firstp)
    let h := h.setPrev firstp lastp
    let h := h.setNext lastp firstp
    reroot h firstp lastp firstp

/-- `diminuto_list_splice`, `Diminuto/src/diminuto_list.c:109-126`; it returns `fromp`. -/
def splice (h : Heap N) (top fromp : Node N) : Option (Heap N) :=
  if h.root fromp = h.root top then some h
  else if fromp = h.next fromp then insert h top fromp
  else
    (reroot h fromp (h.prev fromp) (h.root top)).bind fun h =>
    let h := h.setNext (h.prev fromp) (h.next top)
    let h := h.setPrev (h.next top) (h.prev fromp)
    let h := h.setNext top fromp
    some (h.setPrev fromp top)

/-- `diminuto_list_replace`, `Diminuto/src/diminuto_list.c:128-135`; it returns `oldp`. -/
def replace (h : Heap N) (oldp newp : Node N) : Option (Heap N) :=
  (insert h oldp newp).bind fun h => remove h oldp

/-- `diminuto_list_isempty`, `Diminuto/inc/com/diag/diminuto/diminuto_list.h:379-381`. -/
def isEmpty (h : Heap N) (nodep : Node N) : Bool := nodep = h.next nodep

/-- `diminuto_list_head`, `Diminuto/inc/com/diag/diminuto/diminuto_list.h:463-467`; the
null pointer is `none`. -/
def head (h : Heap N) (nodep : Node N) : Option (Node N) :=
  if isEmpty h (h.root nodep) then none else some (h.next (h.root nodep))

/-- `diminuto_list_tail`, `Diminuto/inc/com/diag/diminuto/diminuto_list.h:475-479`. -/
def tail (h : Heap N) (nodep : Node N) : Option (Node N) :=
  if isEmpty h (h.root nodep) then none else some (h.prev (h.root nodep))

/-- `diminuto_list_push` and `diminuto_list_express`,
`Diminuto/inc/com/diag/diminuto/diminuto_list.h:491-493,561-563`; they return `nodep`. -/
def push (h : Heap N) (stackp nodep : Node N) : Option (Heap N) :=
  insert h (h.root stackp) nodep

/-- `diminuto_list_pop`, `diminuto_list_dequeue` and `diminuto_list_receive`,
`Diminuto/inc/com/diag/diminuto/diminuto_list.h:500-504,525-529,540-542`, which are the
same: the heap and the node or null. -/
def pop (h : Heap N) (stackp : Node N) : Option (Heap N × Option (Node N)) :=
  if isEmpty h (h.root stackp) then some (h, none)
  else
    let nodep := h.next (h.root stackp)
    (remove h nodep).bind fun h => some (h, some nodep)

/-- `diminuto_list_enqueue` and `diminuto_list_send`,
`Diminuto/inc/com/diag/diminuto/diminuto_list.h:516-518,550-552`; they return `nodep`. -/
def enqueue (h : Heap N) (queuep nodep : Node N) : Option (Heap N) :=
  insert h (h.prev (h.root queuep)) nodep

/-- What the loop of `diminuto_list_audit` finds: nothing wrong (null), or a node. -/
abbrev Verdict (N : Nat) := Option (Node N)

/-- The loop of `diminuto_list_audit`, `Diminuto/src/diminuto_list.c:188-210`.  The `int`
limit counts down, and the loop fails when it is no longer positive, so it is a
natural number here. -/
def auditLoop (h : Heap N) (rootp : Node N) : Nat → Node N → Node N → Verdict N
  | limit, nextp, prevp =>
    if h.root nextp ≠ rootp ∨ h.prev (h.next nextp) ≠ nextp ∨ h.next (h.prev nextp) ≠ nextp then
      some nextp
    else if h.root prevp ≠ rootp ∨ h.next (h.prev prevp) ≠ prevp ∨
        h.prev (h.next prevp) ≠ prevp then
      some prevp
    else
      match limit with
      | 0 => some rootp
      | 1 => some rootp
      | limit + 2 =>
        if h.next nextp = h.prev prevp then none
        else auditLoop h rootp (limit + 1) (h.next nextp) (h.prev prevp)

/-- `diminuto_list_audit`, `Diminuto/src/diminuto_list.c:180-213`, with
`diminuto_list_audit_limit` as a parameter. -/
def audit (h : Heap N) (limit : Nat) (nodep : Node N) : Verdict N :=
  auditLoop h (h.root nodep) limit nodep nodep

end Diminuto.DList
