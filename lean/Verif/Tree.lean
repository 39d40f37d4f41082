import Mathlib.Data.Fin.Basic

/-!
# Model of the Tree and Store features

Models `Diminuto/src/diminuto_tree.c` and the inline functions of
`Diminuto/inc/com/diag/diminuto/diminuto_tree.h` and
`Diminuto/inc/com/diag/diminuto/diminuto_store.h`.  There are `N` tree nodes and `M` root
pointers, for any `N` and `M`; a pointer to a node is `Option (Fin N)`, `none` being
null, and a pointer to a root pointer is `Option (Fin M)`, `none` being
`DIMINUTO_TREE_ORPHAN`.

The functions are those of the code, assignment by assignment.  The result `none` of a
function stands for undefined behaviour, which is following a null pointer, or for a loop
that has not ended after more iterations than there are nodes.

Simplifications: the payload pointer `data`, and the key and value of a store node, are not in the
heap; what a comparator reads through them is a fixed function of the two nodes compared.
A store node is identified with the tree node at its beginning, so that the casts of
`diminuto_store.h:87-142` do nothing.  Logging is left out.
-/

namespace Diminuto.Tree

/-- `diminuto_tree_color_t`, `Diminuto/inc/com/diag/diminuto/diminuto_tree.h:56-59`, a bit field. -/
inductive Color
  | red
  | black
deriving DecidableEq, Repr

/-- `diminuto_tree_t`, `Diminuto/inc/com/diag/diminuto/diminuto_tree.h:76-84`, without `data`. -/
structure Cell (N M : Nat) where
  parent : Option (Fin N)
  left : Option (Fin N)
  right : Option (Fin N)
  root : Option (Fin M)
  color : Color
  error : Bool
deriving DecidableEq

/-- The nodes and the root pointers. -/
structure Heap (N M : Nat) where
  cell : Fin N → Cell N M
  top : Fin M → Option (Fin N)

variable {N M : Nat}

/-- Assign to the whole of a node. -/
def Heap.setCell (h : Heap N M) (n : Fin N) (c : Cell N M) : Heap N M :=
  { h with cell := fun x => if x = n then c else h.cell x }
/-- `*rootp = p`. -/
def Heap.setTop (h : Heap N M) (rootp : Fin M) (p : Option (Fin N)) : Heap N M :=
  { h with top := fun x => if x = rootp then p else h.top x }
/-- `n->parent = p`. -/
def Heap.setParent (h : Heap N M) (n : Fin N) (p : Option (Fin N)) : Heap N M :=
  h.setCell n { h.cell n with parent := p }
/-- `n->left = p`. -/
def Heap.setLeft (h : Heap N M) (n : Fin N) (p : Option (Fin N)) : Heap N M :=
  h.setCell n { h.cell n with left := p }
/-- `n->right = p`. -/
def Heap.setRight (h : Heap N M) (n : Fin N) (p : Option (Fin N)) : Heap N M :=
  h.setCell n { h.cell n with right := p }
/-- `n->root = r`. -/
def Heap.setRoot (h : Heap N M) (n : Fin N) (r : Option (Fin M)) : Heap N M :=
  h.setCell n { h.cell n with root := r }
/-- `n->color = c`. -/
def Heap.setColor (h : Heap N M) (n : Fin N) (c : Color) : Heap N M :=
  h.setCell n { h.cell n with color := c }
/-- `n->error = !0`. -/
def Heap.setError (h : Heap N M) (n : Fin N) : Heap N M :=
  h.setCell n { h.cell n with error := true }

/-- `if (!diminuto_tree_isleaf(p)) { p->parent = q; }`, as at
`Diminuto/src/diminuto_tree.c:39-41`. -/
def Heap.setParentOf (h : Heap N M) (p q : Option (Fin N)) : Heap N M :=
  match p with
  | none => h
  | some n => h.setParent n q

/-- `if (!diminuto_tree_isleaf(p)) { p->color = c; }`, as at
`Diminuto/src/diminuto_tree.c:197-199`. -/
def Heap.setColorOf (h : Heap N M) (p : Option (Fin N)) (c : Color) : Heap N M :=
  match p with
  | none => h
  | some n => h.setColor n c

/-- `(!diminuto_tree_isleaf(p)) && diminuto_tree_isred(p)`, as at
`Diminuto/src/diminuto_tree.c:101`. -/
def Heap.isRed (h : Heap N M) (p : Option (Fin N)) : Bool :=
  match p with
  | none => false
  | some n => (h.cell n).color == .red

/-- `diminuto_tree_isleaf(p) || diminuto_tree_isblack(p)`, as at
`Diminuto/src/diminuto_tree.c:159`. -/
def Heap.isBlack (h : Heap N M) (p : Option (Fin N)) : Bool :=
  match p with
  | none => true
  | some n => (h.cell n).color == .black

/-- `diminuto_tree_init`, `Diminuto/inc/com/diag/diminuto/diminuto_tree.h:406-416`. -/
def init (h : Heap N M) (n : Fin N) : Heap N M :=
  h.setCell n ⟨none, none, none, none, .red, false⟩

/-- `N` nodes that have all been initialised, and `M` empty trees. -/
def fresh (N M : Nat) : Heap N M :=
  { cell := fun _ => ⟨none, none, none, none, .red, false⟩, top := fun _ => none }

/-- `rotate_left`, `Diminuto/src/diminuto_tree.c:30-57`. -/
def rotateLeft (h : Heap N M) (nodep : Fin N) (rootp : Fin M) : Option (Heap N M) :=
  (h.cell nodep).right.bind fun rightp =>
  let parentp := (h.cell nodep).parent
  let h := h.setRight nodep (h.cell rightp).left
  let h := h.setParentOf (h.cell rightp).left (some nodep)
  let h := h.setLeft rightp (some nodep)
  let h := h.setParent rightp parentp
  let h := match parentp with
    | none => h.setTop rootp (some rightp)
    | some p =>
      if (h.cell p).left = some nodep then h.setLeft p (some rightp)
      else if (h.cell p).right = some nodep then h.setRight p (some rightp)
      else h.setError nodep
  some (h.setParent nodep (some rightp))

/-- `rotate_right`, `Diminuto/src/diminuto_tree.c:59-86`. -/
def rotateRight (h : Heap N M) (nodep : Fin N) (rootp : Fin M) : Option (Heap N M) :=
  (h.cell nodep).left.bind fun leftp =>
  let parentp := (h.cell nodep).parent
  let h := h.setLeft nodep (h.cell leftp).right
  let h := h.setParentOf (h.cell leftp).right (some nodep)
  let h := h.setRight leftp (some nodep)
  let h := h.setParent leftp parentp
  let h := match parentp with
    | none => h.setTop rootp (some leftp)
    | some p =>
      if (h.cell p).right = some nodep then h.setRight p (some leftp)
      else if (h.cell p).left = some nodep then h.setLeft p (some leftp)
      else h.setError nodep
  some (h.setParent nodep (some leftp))

/-- The part of the loop of `insert_fixup` from the test for an inner node on, for a parent that
is a left child, `Diminuto/src/diminuto_tree.c:109-119`; the result includes the node with
which the loop goes on. -/
def insertRotateLeft (h : Heap N M) (nodep parentp grandp : Fin N) (rootp : Fin M) :
    Option (Heap N M × Fin N) :=
  if (h.cell parentp).right = some nodep then
    (rotateLeft h parentp rootp).bind fun h =>
    (rotateRight ((h.setColor nodep .black).setColor grandp .red) grandp rootp).map (·, parentp)
  else
    (rotateRight ((h.setColor parentp .black).setColor grandp .red) grandp rootp).map (·, nodep)

/-- The same for a parent that is a right child, `Diminuto/src/diminuto_tree.c:133-143`. -/
def insertRotateRight (h : Heap N M) (nodep parentp grandp : Fin N) (rootp : Fin M) :
    Option (Heap N M × Fin N) :=
  if (h.cell parentp).left = some nodep then
    (rotateRight h parentp rootp).bind fun h =>
    (rotateLeft ((h.setColor nodep .black).setColor grandp .red) grandp rootp).map (·, parentp)
  else
    (rotateLeft ((h.setColor parentp .black).setColor grandp .red) grandp rootp).map (·, nodep)

/-- The assignments of colors when the uncle is red, `Diminuto/src/diminuto_tree.c:102-104` and
`:126-128`. -/
def insertRecolor (h : Heap N M) (unclep : Option (Fin N)) (parentp grandp : Fin N) : Heap N M :=
  ((h.setColorOf unclep .black).setColor parentp .black).setColor grandp .red

/-- `insert_fixup`, `Diminuto/src/diminuto_tree.c:88-153`; the first argument bounds the number of
iterations. -/
def insertFixup : Nat → Heap N M → Fin N → Fin M → Option (Heap N M)
  | 0, _, _, _ => none
  | fuel + 1, h, nodep, rootp =>
    match (h.cell nodep).parent with
    | none => (h.top rootp).map fun r => h.setColor r .black
    | some parentp =>
      if (h.cell parentp).color = .red then
        (h.cell parentp).parent.bind fun grandp =>
        if (h.cell grandp).left = some parentp then
          if h.isRed (h.cell grandp).right then
            insertFixup fuel (insertRecolor h (h.cell grandp).right parentp grandp) grandp rootp
          else
            (insertRotateLeft h nodep parentp grandp rootp).bind fun (h, nodep) =>
            insertFixup fuel h nodep rootp
        else if (h.cell grandp).right = some parentp then
          if h.isRed (h.cell grandp).left then
            insertFixup fuel (insertRecolor h (h.cell grandp).left parentp grandp) grandp rootp
          else
            (insertRotateRight h nodep parentp grandp rootp).bind fun (h, nodep) =>
            insertFixup fuel h nodep rootp
        else insertFixup fuel (h.setError nodep) nodep rootp
      else (h.top rootp).map fun r => h.setColor r .black

/-- The treatment of a red sibling on the right, `Diminuto/src/diminuto_tree.c:163-172`; the result
includes the sibling, which the code then follows. -/
def removeSiblingRight (h : Heap N M) (parentp : Fin N) (rootp : Fin M) :
    Option (Heap N M × Fin N) :=
  (h.cell parentp).right.bind fun siblingp =>
  if (h.cell siblingp).color = .red then
    (rotateLeft ((h.setColor siblingp .black).setColor parentp .red) parentp rootp).bind fun h =>
    (h.cell parentp).right.map fun siblingp => (h, siblingp)
  else some (h, siblingp)

/-- The same on the left, `Diminuto/src/diminuto_tree.c:209-218`. -/
def removeSiblingLeft (h : Heap N M) (parentp : Fin N) (rootp : Fin M) :
    Option (Heap N M × Fin N) :=
  (h.cell parentp).left.bind fun siblingp =>
  if (h.cell siblingp).color = .red then
    (rotateRight ((h.setColor siblingp .black).setColor parentp .red) parentp rootp).bind fun h =>
    (h.cell parentp).left.map fun siblingp => (h, siblingp)
  else some (h, siblingp)

/-- The last iteration of `remove_fixup` for a left child, `Diminuto/src/diminuto_tree.c:182-201`. -/
def removeRotateLeft (h : Heap N M) (parentp siblingp : Fin N) (rootp : Fin M) :
    Option (Heap N M) :=
  (if h.isBlack (h.cell siblingp).right then
    (rotateRight ((h.setColorOf (h.cell siblingp).left .black).setColor siblingp .red)
      siblingp rootp).bind fun h =>
    (h.cell parentp).right.map fun siblingp => (h, siblingp)
  else some (h, siblingp)).bind fun (h, siblingp) =>
  let h := h.setColor siblingp (h.cell parentp).color
  let h := h.setColor parentp .black
  let h := h.setColorOf (h.cell siblingp).right .black
  rotateLeft h parentp rootp

/-- The same for a right child, `Diminuto/src/diminuto_tree.c:228-247`. -/
def removeRotateRight (h : Heap N M) (parentp siblingp : Fin N) (rootp : Fin M) :
    Option (Heap N M) :=
  (if h.isBlack (h.cell siblingp).left then
    (rotateLeft ((h.setColorOf (h.cell siblingp).right .black).setColor siblingp .red)
      siblingp rootp).bind fun h =>
    (h.cell parentp).left.map fun siblingp => (h, siblingp)
  else some (h, siblingp)).bind fun (h, siblingp) =>
  let h := h.setColor siblingp (h.cell parentp).color
  let h := h.setColor parentp .black
  let h := h.setColorOf (h.cell siblingp).left .black
  rotateRight h parentp rootp

/-- `remove_fixup`, `Diminuto/src/diminuto_tree.c:155-263`; the first argument bounds the number of
iterations.  Where the code breaks out of the loop it has made `nodep` the root, and the
assignment after the loop is made here. -/
def removeFixup : Nat → Heap N M → Option (Fin N) → Option (Fin N) → Fin M → Option (Heap N M)
  | 0, _, _, _, _ => none
  | fuel + 1, h, nodep, parentp, rootp =>
    if h.isBlack nodep = true ∧ nodep ≠ h.top rootp then
      parentp.bind fun p =>
      if (h.cell p).left = nodep then
        (removeSiblingRight h p rootp).bind fun (h, siblingp) =>
        if h.isBlack (h.cell siblingp).left = true ∧ h.isBlack (h.cell siblingp).right = true then
          let h := h.setColor siblingp .red
          removeFixup fuel h (some p) (h.cell p).parent rootp
        else
          (removeRotateLeft h p siblingp rootp).map fun h => h.setColorOf (h.top rootp) .black
      else if (h.cell p).right = nodep then
        (removeSiblingLeft h p rootp).bind fun (h, siblingp) =>
        if h.isBlack (h.cell siblingp).left = true ∧ h.isBlack (h.cell siblingp).right = true then
          let h := h.setColor siblingp .red
          removeFixup fuel h (some p) (h.cell p).parent rootp
        else
          (removeRotateRight h p siblingp rootp).map fun h => h.setColorOf (h.top rootp) .black
      else
        nodep.bind fun n => removeFixup fuel (h.setError n) nodep parentp rootp
    else some (h.setColorOf nodep .black)

/-- The assignments of `link_together` to the node, `Diminuto/src/diminuto_tree.c:267-271`; the
last one, `*linkp = nodep`, is left to the callers. -/
def linkNode (h : Heap N M) (nodep : Fin N) (parentp : Option (Fin N)) (rootp : Option (Fin M)) :
    Heap N M :=
  ((((h.setColor nodep .red).setParent nodep parentp).setLeft nodep none).setRight nodep
    none).setRoot nodep rootp

/-- `diminuto_tree_insert_left_or_root`, `Diminuto/src/diminuto_tree.c:279-300`, with `link_together`,
`:265-273`: the heap and the pointer returned. -/
def insertLeftOrRoot (h : Heap N M) (nodep : Fin N) (parentp : Option (Fin N))
    (rootp : Option (Fin M)) : Option (Heap N M × Option (Fin N)) :=
  if (h.cell nodep).root ≠ none then some (h, none)
  else match parentp with
  | none =>
    rootp.bind fun rootp =>
    if h.top rootp ≠ none then some (h, none)
    else
      let h := (linkNode h nodep none (some rootp)).setTop rootp (some nodep)
      (insertFixup (N + 2) h nodep rootp).map (·, some nodep)
  | some p =>
    if (h.cell p).left ≠ none then some (h, none)
    else
      let h := (linkNode h nodep (some p) (h.cell p).root).setLeft p (some nodep)
      (h.cell nodep).root.bind fun rootp =>
      (insertFixup (N + 2) h nodep rootp).map (·, some nodep)

/-- `diminuto_tree_insert_right_or_root`, `Diminuto/src/diminuto_tree.c:302-323`, with
`link_together`, `:265-273`: the heap and the pointer returned. -/
def insertRightOrRoot (h : Heap N M) (nodep : Fin N) (parentp : Option (Fin N))
    (rootp : Option (Fin M)) : Option (Heap N M × Option (Fin N)) :=
  if (h.cell nodep).root ≠ none then some (h, none)
  else match parentp with
  | none =>
    rootp.bind fun rootp =>
    if h.top rootp ≠ none then some (h, none)
    else
      let h := (linkNode h nodep none (some rootp)).setTop rootp (some nodep)
      (insertFixup (N + 2) h nodep rootp).map (·, some nodep)
  | some p =>
    if (h.cell p).right ≠ none then some (h, none)
    else
      let h := (linkNode h nodep (some p) (h.cell p).root).setRight p (some nodep)
      (h.cell nodep).root.bind fun rootp =>
      (insertFixup (N + 2) h nodep rootp).map (·, some nodep)

/-- `diminuto_tree_insert_root`, `Diminuto/inc/com/diag/diminuto/diminuto_tree.h:505-508`. -/
def insertRoot (h : Heap N M) (nodep : Fin N) (rootp : Fin M) :
    Option (Heap N M × Option (Fin N)) :=
  insertLeftOrRoot h nodep none (some rootp)

/-- `diminuto_tree_insert_left`, `Diminuto/inc/com/diag/diminuto/diminuto_tree.h:517-520`. -/
def insertLeft (h : Heap N M) (nodep p : Fin N) : Option (Heap N M × Option (Fin N)) :=
  insertLeftOrRoot h nodep (some p) (h.cell p).root

/-- `diminuto_tree_insert_right`, `Diminuto/inc/com/diag/diminuto/diminuto_tree.h:529-532`. -/
def insertRight (h : Heap N M) (nodep p : Fin N) : Option (Heap N M × Option (Fin N)) :=
  insertRightOrRoot h nodep (some p) (h.cell p).root

/-- The loops that go left as far as possible, `Diminuto/src/diminuto_tree.c:355-357`, `:500-502` and
`:539-541`. -/
def leftmost (h : Heap N M) : Nat → Fin N → Option (Fin N)
  | 0, _ => none
  | fuel + 1, n =>
    match (h.cell n).left with
    | none => some n
    | some l => leftmost h fuel l

/-- The loops that go right as far as possible, `Diminuto/src/diminuto_tree.c:521-523` and
`:552-554`. -/
def rightmost (h : Heap N M) : Nat → Fin N → Option (Fin N)
  | 0, _ => none
  | fuel + 1, n =>
    match (h.cell n).right with
    | none => some n
    | some r => rightmost h fuel r

/-- The tests and assignments that make the link to `oldp` in its parent, or in the root pointer,
lead to `newp`, `Diminuto/src/diminuto_tree.c:379-387`, `:404-412` and `:444-452`; `errp` is the
node whose error bit is set if there is no such link. -/
def relink (h : Heap N M) (parentp : Option (Fin N)) (rootp : Fin M) (oldp : Fin N)
    (newp : Option (Fin N)) (errp : Fin N) : Heap N M :=
  match parentp with
  | none => h.setTop rootp newp
  | some p =>
    if (h.cell p).left = some oldp then h.setLeft p newp
    else if (h.cell p).right = some oldp then h.setRight p newp
    else h.setError errp

/-- The removal of a node one of whose children is null, `Diminuto/src/diminuto_tree.c:397-412`; the
result is the heap and the values of `childp`, `parentp` and `color`. -/
def unlinkSimple (h : Heap N M) (nodep : Fin N) (childp : Option (Fin N)) (rootp : Fin M) :
    Heap N M × Option (Fin N) × Option (Fin N) × Color :=
  let parentp := (h.cell nodep).parent
  let color := (h.cell nodep).color
  let h := h.setParentOf childp parentp
  (relink h parentp rootp nodep childp nodep, childp, parentp, color)

/-- The removal of a node `oldp` with two children, whose successor takes its place,
`Diminuto/src/diminuto_tree.c:352-392`; `right` is its right child. -/
def unlinkSuccessor (h : Heap N M) (oldp right : Fin N) (rootp : Fin M) :
    Option (Heap N M × Option (Fin N) × Option (Fin N) × Color) :=
  (leftmost h N right).bind fun nodep =>
  let childp := (h.cell nodep).right
  (h.cell nodep).parent.bind fun parentp =>
  let color := (h.cell nodep).color
  let h := h.setParentOf childp (some parentp)
  let h := if parentp = oldp then h.setRight parentp childp else h.setLeft parentp childp
  let parentp := if parentp = oldp then nodep else parentp
  let h := h.setColor nodep (h.cell oldp).color
  let h := h.setParent nodep (h.cell oldp).parent
  let h := h.setLeft nodep (h.cell oldp).left
  let h := h.setRight nodep (h.cell oldp).right
  let h := h.setRoot nodep (h.cell oldp).root
  let h := relink h (h.cell oldp).parent rootp oldp (some nodep) nodep
  (h.cell oldp).left.bind fun leftp =>
  let h := h.setParent leftp (some nodep)
  let h := h.setParentOf (h.cell oldp).right (some nodep)
  some (h, childp, some parentp, color)

/-- The choice between the ways of removing a node, `Diminuto/src/diminuto_tree.c:344-348`. -/
def unlink (h : Heap N M) (nodep : Fin N) (rootp : Fin M) :
    Option (Heap N M × Option (Fin N) × Option (Fin N) × Color) :=
  match (h.cell nodep).left with
  | none => some (unlinkSimple h nodep (h.cell nodep).right rootp)
  | some leftp =>
    match (h.cell nodep).right with
    | none => some (unlinkSimple h nodep (some leftp) rootp)
    | some right => unlinkSuccessor h nodep right rootp

/-- `diminuto_tree_remove`, `Diminuto/src/diminuto_tree.c:325-432`: the heap and the pointer
returned.  (Given a null pointer it does nothing and returns null.) -/
def remove (h : Heap N M) (gonep : Fin N) : Option (Heap N M × Option (Fin N)) :=
  match (h.cell gonep).root with
  | none => some (h, none)
  | some rootp =>
    (unlink h gonep rootp).bind fun (h, childp, parentp, color) =>
    (if color = .black then removeFixup (N + 2) h childp parentp rootp else some h).map fun h =>
    (init h gonep, some gonep)

/-- `diminuto_tree_replace`, `Diminuto/src/diminuto_tree.c:434-486`: the heap and the pointer
returned. -/
def replace (h : Heap N M) (oldp newp : Fin N) : Heap N M × Option (Fin N) :=
  match (h.cell oldp).root with
  | none => (h, none)
  | some rootp =>
    if (h.cell newp).root ≠ none then (h, none)
    else
      let h := relink h (h.cell oldp).parent rootp oldp (some newp) oldp
      let h := h.setParentOf (h.cell oldp).left (some newp)
      let h := h.setParentOf (h.cell oldp).right (some newp)
      let h := h.setColor newp (h.cell oldp).color
      let h := h.setParent newp (h.cell oldp).parent
      let h := h.setLeft newp (h.cell oldp).left
      let h := h.setRight newp (h.cell oldp).right
      let h := h.setRoot newp (h.cell oldp).root
      (init h oldp, some oldp)

/-- The loop of `diminuto_tree_next` that goes up, `Diminuto/src/diminuto_tree.c:505-507`. -/
def climbRight (h : Heap N M) : Nat → Fin N → Option (Option (Fin N))
  | 0, _ => none
  | fuel + 1, n =>
    match (h.cell n).parent with
    | none => some none
    | some p => if (h.cell p).right = some n then climbRight h fuel p else some (some p)

/-- The loop of `diminuto_tree_prev` that goes up, `Diminuto/src/diminuto_tree.c:526-528`. -/
def climbLeft (h : Heap N M) : Nat → Fin N → Option (Option (Fin N))
  | 0, _ => none
  | fuel + 1, n =>
    match (h.cell n).parent with
    | none => some none
    | some p => if (h.cell p).left = some n then climbLeft h fuel p else some (some p)

/-- `diminuto_tree_next`, `Diminuto/src/diminuto_tree.c:492-511`. -/
def next (h : Heap N M) (n : Fin N) : Option (Option (Fin N)) :=
  if (h.cell n).root = none then some none
  else match (h.cell n).right with
    | some r => (leftmost h N r).map some
    | none => climbRight h N n

/-- `diminuto_tree_prev`, `Diminuto/src/diminuto_tree.c:513-532`. -/
def prev (h : Heap N M) (n : Fin N) : Option (Option (Fin N)) :=
  if (h.cell n).root = none then some none
  else match (h.cell n).left with
    | some l => (rightmost h N l).map some
    | none => climbLeft h N n

/-- `diminuto_tree_first`, `Diminuto/src/diminuto_tree.c:534-545`. -/
def first (h : Heap N M) (rootp : Fin M) : Option (Option (Fin N)) :=
  match h.top rootp with
  | none => some none
  | some n => (leftmost h N n).map some

/-- `diminuto_tree_last`, `Diminuto/src/diminuto_tree.c:547-558`. -/
def last (h : Heap N M) (rootp : Fin M) : Option (Option (Fin N)) :=
  match h.top rootp with
  | none => some none
  | some n => (rightmost h N n).map some

/-- `diminuto_tree_search` from a node that is not null, `Diminuto/src/diminuto_tree.c:569-583`: the
node returned and the value left in `*rcp`.  `cmp n` is what the comparator
returns for the node `n` and the target. -/
def searchFrom (h : Heap N M) (cmp : Fin N → Int) : Nat → Fin N → Option (Fin N × Int)
  | 0, _ => none
  | fuel + 1, n =>
    if cmp n < 0 then
      match (h.cell n).right with
      | none => some (n, cmp n)
      | some r => searchFrom h cmp fuel r
    else if cmp n > 0 then
      match (h.cell n).left with
      | none => some (n, cmp n)
      | some l => searchFrom h cmp fuel l
    else some (n, cmp n)

/-- `diminuto_tree_search`, `Diminuto/src/diminuto_tree.c:564-584`; from a null pointer it returns
null and leaves `*rcp` alone, here the inner `none`. -/
def search (h : Heap N M) (cmp : Fin N → Int) (p : Option (Fin N)) : Option (Option (Fin N × Int)) :=
  match p with
  | none => some none
  | some n => (searchFrom h cmp N n).map some

/-- `diminuto_tree_search_insert_or_replace`, `Diminuto/src/diminuto_tree.c:586-607`, and
`diminuto_store_insert_or_replace`, `Diminuto/inc/com/diag/diminuto/diminuto_store.h:244-247`: the heap
and the pointer returned. -/
def insertOrReplace (h : Heap N M) (cmp : Fin N → Fin N → Int) (rootp : Fin M) (targetp : Fin N)
    (rep : Bool) : Option (Heap N M × Option (Fin N)) :=
  (search h (fun n => cmp n targetp) (h.top rootp)).bind fun found =>
  match found with
  | none => insertRoot h targetp rootp
  | some (parentp, rc) =>
    if rc < 0 then insertRight h targetp parentp
    else if rc > 0 then insertLeft h targetp parentp
    else if rep then some (replace h parentp targetp)
    else some (h, none)

/-- `diminuto_store_find`, `Diminuto/inc/com/diag/diminuto/diminuto_store.h:224-230`; the target is
given by what the comparator returns for a node and it. -/
def find (h : Heap N M) (cmp : Fin N → Int) (rootp : Fin M) : Option (Option (Fin N)) :=
  (search h cmp (h.top rootp)).map fun found =>
  match found with
  | none => none
  | some (n, rc) => if rc = 0 then some n else none

/-- The test of `audit` for the link that leads to a node, `Diminuto/src/diminuto_tree.c:645-666`. -/
def auditLink (h : Heap N M) (rootp : Fin M) (n : Fin N) (parentp : Option (Fin N)) : Bool :=
  match parentp with
  | none => h.top rootp == some n && (h.cell n).color == .black
  | some p => (h.cell p).left == some n || (h.cell p).right == some n

/-- What `audit` does about a child of the node `n`, `Diminuto/src/diminuto_tree.c:682-694` and
`:695-707`; `recur` is the recursive call. -/
def auditChild (h : Heap N M) (n : Fin N) (child : Option (Fin N)) (heightp : Int)
    (recur : Fin N → Option (Option (Fin N) × Int)) : Option (Option (Fin N) × Int) :=
  match child with
  | none => some (none, heightp)
  | some l =>
    if (h.cell n).color = .red ∧ (h.cell l).color ≠ .black then some (some n, heightp) else recur l

/-- `audit`, `Diminuto/src/diminuto_tree.c:622-730`, for a node that is not null: the pointer
returned and the value left in `*heightp`.  `height` is an `int` in the code, which does not
overflow with fewer than 2^31 nodes.  The tests of the colors for being neither, `:672-678`,
are left out, the color being one bit. -/
def auditNode (h : Heap N M) (rootp : Fin M) :
    Nat → Fin N → Option (Fin N) → Int → Int → Option (Option (Fin N) × Int)
  | 0, _, _, _, _ => none
  | fuel + 1, n, parentp, height, heightp =>
    if (h.cell n).root ≠ some rootp then some (some n, heightp)
    else if (h.cell n).parent ≠ parentp then some (some n, heightp)
    else if h.top rootp = some n ∧ parentp ≠ none then some (some n, heightp)
    else if auditLink h rootp n parentp = false then some (some n, heightp)
    else if (h.cell n).error then some (some n, heightp)
    else
      let height := if (h.cell n).color = .black then height + 1 else height
      (auditChild h n (h.cell n).left heightp fun l =>
        auditNode h rootp fuel l (some n) height heightp).bind fun (result, heightp) =>
      if result ≠ none then some (result, heightp)
      else
        (auditChild h n (h.cell n).right heightp fun r =>
          auditNode h rootp fuel r (some n) height heightp).bind fun (result, heightp) =>
        if result ≠ none then some (result, heightp)
        else if (h.cell n).left ≠ none ∨ (h.cell n).right ≠ none then some (none, heightp)
        else if heightp < 0 then some (none, height)
        else if heightp = height then some (none, heightp)
        else some (some n, heightp)

/-- `diminuto_tree_audit`, `Diminuto/src/diminuto_tree.c:732-736`: null, if it finds nothing wrong,
or a node.  The recursion cannot be deeper than the number of nodes without visiting a node below
itself. -/
def audit (h : Heap N M) (rootp : Fin M) : Option (Option (Fin N)) :=
  match h.top rootp with
  | none => some none
  | some n => (auditNode h rootp (N + 1) n none 0 (-1)).map (·.1)

end Diminuto.Tree
