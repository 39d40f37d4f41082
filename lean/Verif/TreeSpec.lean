import Verif.Tree

/-!
# What a tree is, without pointers

A binary tree with colors, its nodes in order, its paths, and the red-black properties cited in
`Diminuto/inc/com/diag/diminuto/diminuto_tree.h:577-589`; and `Holds`, which says that the nodes reached
from a root pointer are linked as such a tree.
-/

namespace Diminuto.Tree

/-- A binary tree of nodes with colors. -/
inductive T (N : Nat)
  | leaf
  | node (color : Color) (left : T N) (n : Fin N) (right : T N)
deriving DecidableEq

variable {N M : Nat}

namespace T

/-- The nodes from left to right. -/
def inorder : T N → List (Fin N)
  | leaf => []
  | node _ l n r => l.inorder ++ n :: r.inorder

/-- The root node, if any. -/
def ptr : T N → Option (Fin N)
  | leaf => none
  | node _ _ n _ => some n

/-- The color of the root; a leaf is black. -/
def color : T N → Color
  | leaf => .black
  | node c _ _ _ => c

/-- The number of nodes on the longest path. -/
def height : T N → Nat
  | leaf => 0
  | node _ l _ r => max l.height r.height + 1

/-- The colors on the paths from the root to each leaf. -/
def paths : T N → List (List Color)
  | leaf => [[]]
  | node c l _ r => (l.paths ++ r.paths).map (c :: ·)

/-- No red node has a red child. -/
def NoRedRed : T N → Prop
  | leaf => True
  | node c l _ r => (c = .red → l.color = .black ∧ r.color = .black) ∧ l.NoRedRed ∧ r.NoRedRed

/-- The red-black properties: the root is black, no red node has a red child, and all the
paths from the root to a leaf have the same number of black nodes. -/
def RedBlack (t : T N) : Prop :=
  t.color = .black ∧ t.NoRedRed ∧ ∀ p ∈ t.paths, ∀ q ∈ t.paths, p.count .black = q.count .black

end T

/-- The nodes below `p` are linked as the tree `t`: each has the parent, the
children, the root pointer and the color that it should have, and no error. -/
def Linked (h : Heap N M) (rt : Fin M) : Option (Fin N) → T N → Prop
  | _, .leaf => True
  | p, .node c l n r =>
    h.cell n = ⟨p, l.ptr, r.ptr, some rt, c, false⟩ ∧ Linked h rt (some n) l ∧ Linked h rt (some n) r

/-- The root pointer `rt` leads to the tree `t`, no node occurring twice. -/
def Holds (h : Heap N M) (rt : Fin M) (t : T N) : Prop :=
  h.top rt = t.ptr ∧ Linked h rt none t ∧ t.inorder.Nodup

end Diminuto.Tree
