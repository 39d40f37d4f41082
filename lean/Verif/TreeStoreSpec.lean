import Verif.TreeSpec
import Mathlib.Logic.Function.Basic

/-!
# Histories of trees and stores, and what a store is without a tree
-/

namespace Diminuto.Tree

variable {N M : Nat}

/-- A call of a function that changes trees. -/
inductive Op (N M : Nat)
  /-- `diminuto_tree_insert_root`. -/
  | insertRoot (x : Fin N) (rt : Fin M)
  /-- `diminuto_tree_insert_left`. -/
  | insertLeft (x p : Fin N)
  /-- `diminuto_tree_insert_right`. -/
  | insertRight (x p : Fin N)
  /-- `diminuto_tree_remove`. -/
  | remove (x : Fin N)
  /-- `diminuto_tree_replace`. -/
  | replace (x y : Fin N)
  /-- `diminuto_tree_search_insert_or_replace`, with any comparator. -/
  | put (cmp : Fin N → Fin N → Int) (rt : Fin M) (x : Fin N) (rep : Bool)

/-- The heap after the call and the pointer returned. -/
def Op.step (h : Heap N M) : Op N M → Option (Heap N M × Option (Fin N))
  | .insertRoot x rt => Tree.insertRoot h x rt
  | .insertLeft x p => Tree.insertLeft h x p
  | .insertRight x p => Tree.insertRight h x p
  | .remove x => Tree.remove h x
  | .replace x y => some (Tree.replace h x y)
  | .put cmp rt x rep => insertOrReplace h cmp rt x rep

/-- The node next to which a node is inserted is on a tree. -/
def Op.Legal (h : Heap N M) : Op N M → Prop
  | .insertLeft _ p => (h.cell p).root ≠ none
  | .insertRight _ p => (h.cell p).root ≠ none
  | _ => True

/-- The heaps that calls lead to, starting with initialised nodes and empty trees. -/
inductive Reach : Heap N M → Prop
  | fresh : Reach (fresh N M)
  | step {h h' : Heap N M} {op : Op N M} {r : Option (Fin N)} :
    Reach h → op.step h = some (h', r) → Reach h'

/-- Follow `step` from a pointer until it is null: the nodes visited; `none` if that takes more
than `fuel` nodes. -/
def collect (step : Fin N → Option (Option (Fin N))) : Nat → Option (Fin N) → Option (List (Fin N))
  | _, none => some []
  | 0, some _ => none
  | fuel + 1, some x => (step x).bind fun p => (collect step fuel p).map (x :: ·)

/-- The nodes visited by
`for (n = diminuto_tree_first(rootp); n != null; n = diminuto_tree_next(n))`. -/
def forward (h : Heap N M) (rt : Fin M) : Option (List (Fin N)) :=
  (first h rt).bind (collect (next h) N)

/-- The nodes visited by
`for (n = diminuto_tree_last(rootp); n != null; n = diminuto_tree_prev(n))`. -/
def backward (h : Heap N M) (rt : Fin M) : Option (List (Fin N)) :=
  (last h rt).bind (collect (prev h) N)

/-- The comparator orders the nodes, some of which may be equal in the order. -/
structure IsOrder (cmp : Fin N → Fin N → Int) : Prop where
  refl : ∀ a, cmp a a = 0
  flip : ∀ a b, cmp a b < 0 ↔ 0 < cmp b a
  trans : ∀ a b c, cmp a b ≤ 0 → cmp b c ≤ 0 → cmp a c ≤ 0

/-- A call of a function of the store. -/
inductive StoreOp (N M : Nat)
  /-- `diminuto_store_insert` or, if `rep`, `diminuto_store_replace`. -/
  | put (rt : Fin M) (x : Fin N) (rep : Bool)
  /-- `diminuto_store_remove`. -/
  | remove (x : Fin N)
  /-- `diminuto_store_find`. -/
  | find (rt : Fin M) (target : Fin N)

/-- A call of the code.  Each store has its comparator. -/
def StoreOp.code (cmp : Fin M → Fin N → Fin N → Int) (h : Heap N M) :
    StoreOp N M → Option (Heap N M × Option (Fin N))
  | .put rt x rep => insertOrReplace h (cmp rt) rt x rep
  | .remove x => Tree.remove h x
  | .find rt q => (Tree.find h (fun n => cmp rt n q) rt).map fun r => (h, r)

/-- All the calls, and the pointers that they return. -/
def codeRun (cmp : Fin M → Fin N → Fin N → Int) (h : Heap N M) :
    List (StoreOp N M) → Option (Heap N M × List (Option (Fin N)))
  | [] => some (h, [])
  | op :: ops =>
    (op.code cmp h).bind fun (h, r) => (codeRun cmp h ops).map fun (h, rs) => (h, r :: rs)

/-- Which store each node is in, if any. -/
abbrev Owner (N M : Nat) := Fin N → Option (Fin M)

/-- The node in the store whose key is that of the target. -/
def lookup (cmp : Fin M → Fin N → Fin N → Int) (own : Owner N M) (rt : Fin M) (q : Fin N) : Option (Fin N) :=
  (List.finRange N).find? fun n => own n = some rt && cmp rt n q = 0

/-- What a call should do: insert if there is no node with that key; otherwise, if asked to, take
that node out, return it, and put the new one in; do nothing and return null if the new node is
in a store already. -/
def StoreOp.spec (cmp : Fin M → Fin N → Fin N → Int) (own : Owner N M) :
    StoreOp N M → Owner N M × Option (Fin N)
  | .put rt x rep =>
    if own x ≠ none then (own, none)
    else match lookup cmp own rt x with
      | none => (Function.update own x (some rt), some x)
      | some y =>
        if rep then (Function.update (Function.update own y none) x (some rt), some y) else (own, none)
  | .remove x => if own x = none then (own, none) else (Function.update own x none, some x)
  | .find rt q => (own, lookup cmp own rt q)

/-- All the calls, and the pointers that they should return. -/
def specRun (cmp : Fin M → Fin N → Fin N → Int) (own : Owner N M) :
    List (StoreOp N M) → Owner N M × List (Option (Fin N))
  | [] => (own, [])
  | op :: ops =>
    let s := op.spec cmp own
    let t := specRun cmp s.1 ops
    (t.1, s.2 :: t.2)

/-- The colors on the paths from the root to each node that has no child. -/
def T.ends : T N → List (List Color)
  | .leaf => []
  | .node c .leaf _ .leaf => [[c]]
  | .node c l _ r => (l.ends ++ r.ends).map (c :: ·)

end Diminuto.Tree
