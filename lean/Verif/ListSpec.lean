import Mathlib.Data.Fin.Basic

/-!
# Specification of the List feature

The state is the collection of rings, each ring the sequence of its nodes starting
with its root.  There are no pointers here, and nothing of the code.
-/

namespace Diminuto.DList

/-- The rings of `N` nodes, each starting with its root. -/
abbrev Rings (N : Nat) := List (List (Fin N))

variable {N : Nat}

/-- The sequence with `w` inserted after the node `p`. -/
def insertAfter (p : Fin N) (w : List (Fin N)) : List (Fin N) → List (Fin N)
  | [] => []
  | y :: l => if y = p then y :: (w ++ l) else y :: insertAfter p w l

/-- The ring seen as starting at the node `f`. -/
def rotateTo (f : Fin N) (l : List (Fin N)) : List (Fin N) :=
  l.dropWhile (fun y => y != f) ++ l.takeWhile (fun y => y != f)

/-- The ring that a node is on. -/
def ringOf (A : Rings N) (x : Fin N) : List (Fin N) :=
  (A.find? (fun l => l.contains x)).getD []

/-- The root of the ring a node is on. -/
def specRoot (A : Rings N) (x : Fin N) : Fin N := (ringOf A x).headD x

/-- Removing a node: it is on its own ring afterwards.  If it was the root then the root is
now the node after it. -/
def specRemove (A : Rings N) (x : Fin N) : Rings N :=
  let l := ringOf A x
  if l = [x] then A else l.erase x :: [x] :: A.erase l

/-- Inserting a node after another: it is removed from where it was.  Inserting a node after
itself only removes it. -/
def specInsert (A : Rings N) (p n : Fin N) : Rings N :=
  let B := specRemove A n
  if p = n then B
  else insertAfter p [n] (ringOf B p) :: (B.erase (ringOf B p)).erase [n]

/-- Making a node the root. -/
def specReroot (A : Rings N) (x : Fin N) : Rings N :=
  rotateTo x (ringOf A x) :: A.erase (ringOf A x)

/-- Cutting out the nodes from `f` through `t`, in ring order.  If they are not on the same
ring, or are the whole ring, nothing changes.  What remains keeps its root if it still has
it, and otherwise starts with what was after `t`. -/
def specCut (A : Rings N) (f t : Fin N) : Rings N :=
  let l := ringOf A f
  if t ∉ l then A
  else
    let w := rotateTo f l
    let segment := w.takeWhile (fun y => y != t) ++ [t]
    let rest := (w.dropWhile (fun y => y != t)).tail
    if rest = [] then A
    else
      segment ::
        (if specRoot A f ∈ segment then rest else rotateTo (specRoot A f) rest) :: A.erase l

/-- Splicing the whole ring of `f`, from `f` onwards, in after `p`.  If they are on the same
ring, nothing changes. -/
def specSplice (A : Rings N) (p f : Fin N) : Rings N :=
  let l := ringOf A p
  let k := ringOf A f
  if l = k then A
  else insertAfter p (rotateTo f k) l :: (A.erase l).erase k

/-- The first node after the root, if there is another node. -/
def specHead (A : Rings N) (x : Fin N) : Option (Fin N) :=
  (ringOf A x).tail.head?

/-- The last node of the ring, if it is not the root. -/
def specTail (A : Rings N) (x : Fin N) : Option (Fin N) :=
  (ringOf A x).tail.getLast?

/-- The operations of the interface. -/
inductive Op (N : Nat)
  | remove (x : Fin N)
  | insert (p n : Fin N)
  | replace (o n : Fin N)
  | reroot (x : Fin N)
  | cut (f t : Fin N)
  | splice (p f : Fin N)
  | push (s n : Fin N)
  | pop (s : Fin N)
  | enqueue (q n : Fin N)
  | dequeue (q : Fin N)
  | head (x : Fin N)
  | tail (x : Fin N)
  | root (x : Fin N)

/-- What each operation does to the rings, and the node that it returns, `none` for null. -/
def specStep (A : Rings N) : Op N → Rings N × Option (Fin N)
  | .remove x => (specRemove A x, some x)
  | .insert p n => (specInsert A p n, some n)
  | .replace o n => (specRemove (specInsert A o n) o, some o)
  | .reroot x => (specReroot A x, some x)
  | .cut f t => (specCut A f t, some f)
  | .splice p f => (specSplice A p f, some f)
  | .push s n => (specInsert A (specRoot A s) n, some n)
  | .pop s | .dequeue s =>
    match specHead A s with
    | none => (A, none)
    | some n => (specRemove A n, some n)
  | .enqueue q n => (specInsert A ((ringOf A q).getLastD q) n, some n)
  | .head x => (A, specHead A x)
  | .tail x => (A, specTail A x)
  | .root x => (A, some (specRoot A x))

/-- A history of operations: the final rings and what each returned. -/
def specRun (A : Rings N) : List (Op N) → Rings N × List (Option (Fin N))
  | [] => (A, [])
  | o :: os =>
    let (A, r) := specStep A o
    let (A, rs) := specRun A os
    (A, r :: rs)

/-- Every node on its own. -/
def specFresh (N : Nat) : Rings N := (List.finRange N).map fun x => [x]

end Diminuto.DList
