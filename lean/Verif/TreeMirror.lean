import Verif.TreeLemmas2

/-!
# Lemmas about the Tree: exchanging left and right

Half of the code is the mirror image of the other half.
-/

namespace Diminuto.Tree

open Frame T

variable {N M : Nat} {h₀ h : Heap N M} {rt : Fin M} {L : List (Fin N)} {k : List (Frame N)}

def Cell.mirror (c : Cell N M) : Cell N M := { c with left := c.right, right := c.left }

def Heap.mirror (h : Heap N M) : Heap N M := { h with cell := fun x => (h.cell x).mirror }

def T.mirror : T N → T N
  | leaf => leaf
  | node c l n r => node c r.mirror n l.mirror

def Frame.mirror : Frame N → Frame N
  | inL c n r => inR c r.mirror n
  | inR c l n => inL c n l.mirror

@[simp] theorem Cell.mirror_mirror (c : Cell N M) : c.mirror.mirror = c := rfl
@[simp] theorem Heap.mirror_mirror (h : Heap N M) : h.mirror.mirror = h := rfl
@[simp] theorem T.mirror_mirror (t : T N) : t.mirror.mirror = t := by
  induction t with
  | leaf => rfl
  | node c l n r ihl ihr => simp [T.mirror, ihl, ihr]
@[simp] theorem Frame.mirror_mirror (f : Frame N) : f.mirror.mirror = f := by
  cases f <;> simp [Frame.mirror]

@[simp] theorem mirror_top (h : Heap N M) : h.mirror.top = h.top := rfl
@[simp] theorem mirror_left (h : Heap N M) (x : Fin N) : (h.mirror.cell x).left = (h.cell x).right := rfl
@[simp] theorem mirror_right (h : Heap N M) (x : Fin N) : (h.mirror.cell x).right = (h.cell x).left := rfl
@[simp] theorem mirror_parent (h : Heap N M) (x : Fin N) : (h.mirror.cell x).parent = (h.cell x).parent := rfl
@[simp] theorem mirror_root (h : Heap N M) (x : Fin N) : (h.mirror.cell x).root = (h.cell x).root := rfl
@[simp] theorem mirror_color (h : Heap N M) (x : Fin N) : (h.mirror.cell x).color = (h.cell x).color := rfl

theorem mirror_setCell (h : Heap N M) (n : Fin N) (c : Cell N M) :
    (h.setCell n c).mirror = h.mirror.setCell n c.mirror := by
  simp only [Heap.mirror, Heap.setCell, Heap.mk.injEq, and_true]
  funext x
  split <;> rfl

@[simp] theorem mirror_setLeft (h : Heap N M) (n : Fin N) (p : Option (Fin N)) :
    (h.setLeft n p).mirror = h.mirror.setRight n p := by
  simp only [Heap.setLeft, mirror_setCell]; rfl
@[simp] theorem mirror_setRight (h : Heap N M) (n : Fin N) (p : Option (Fin N)) :
    (h.setRight n p).mirror = h.mirror.setLeft n p := by
  simp only [Heap.setRight, mirror_setCell]; rfl
@[simp] theorem mirror_setParent (h : Heap N M) (n : Fin N) (p : Option (Fin N)) :
    (h.setParent n p).mirror = h.mirror.setParent n p := by
  simp only [Heap.setParent, mirror_setCell]; rfl
@[simp] theorem mirror_setColor (h : Heap N M) (n : Fin N) (c : Color) :
    (h.setColor n c).mirror = h.mirror.setColor n c := by
  simp only [Heap.setColor, mirror_setCell]; rfl
@[simp] theorem mirror_setError (h : Heap N M) (n : Fin N) :
    (h.setError n).mirror = h.mirror.setError n := by
  simp only [Heap.setError, mirror_setCell]; rfl
@[simp] theorem mirror_setTop (h : Heap N M) (r : Fin M) (p : Option (Fin N)) :
    (h.setTop r p).mirror = h.mirror.setTop r p := rfl
@[simp] theorem mirror_setParentOf (h : Heap N M) (p q : Option (Fin N)) :
    (h.setParentOf p q).mirror = h.mirror.setParentOf p q := by
  cases p <;> simp [Heap.setParentOf]
@[simp] theorem mirror_setColorOf (h : Heap N M) (p : Option (Fin N)) (c : Color) :
    (h.setColorOf p c).mirror = h.mirror.setColorOf p c := by
  cases p <;> simp [Heap.setColorOf]
@[simp] theorem mirror_isBlack (h : Heap N M) (p : Option (Fin N)) : h.mirror.isBlack p = h.isBlack p := rfl
@[simp] theorem mirror_isRed (h : Heap N M) (p : Option (Fin N)) : h.mirror.isRed p = h.isRed p := rfl

/-- The tests of `rotate_right`, which are those of `relink` the other way round. -/
def relinkR (h : Heap N M) (parentp : Option (Fin N)) (rootp : Fin M) (oldp : Fin N)
    (newp : Option (Fin N)) (errp : Fin N) : Heap N M :=
  match parentp with
  | none => h.setTop rootp newp
  | some p =>
    if (h.cell p).right = some oldp then h.setRight p newp
    else if (h.cell p).left = some oldp then h.setLeft p newp
    else h.setError errp

theorem relink_mirror (h : Heap N M) (parentp : Option (Fin N)) (rootp : Fin M) (oldp : Fin N)
    (newp : Option (Fin N)) (errp : Fin N) :
    (relink h.mirror parentp rootp oldp newp errp).mirror = relinkR h parentp rootp oldp newp errp := by
  cases parentp with
  | none => rfl
  | some p =>
    unfold relink relinkR
    simp only []
    by_cases h1 : (h.cell p).right = some oldp
    · rw [if_pos h1, if_pos (show (h.mirror.cell p).left = some oldp from h1)]; simp
    · rw [if_neg h1, if_neg (show ¬ (h.mirror.cell p).left = some oldp from h1)]
      by_cases h2 : (h.cell p).left = some oldp
      · rw [if_pos h2, if_pos (show (h.mirror.cell p).right = some oldp from h2)]; simp
      · rw [if_neg h2, if_neg (show ¬ (h.mirror.cell p).right = some oldp from h2)]; simp

theorem rotateRight_eq (h : Heap N M) (x y : Fin N) (rt : Fin M) (hr : (h.cell x).left = some y) :
    rotateRight h x rt = some
      ((relinkR ((((h.setLeft x (h.cell y).right).setParentOf ((h.setLeft x (h.cell y).right).cell y).right
        (some x)).setRight y (some x)).setParent y (h.cell x).parent)
        (h.cell x).parent rt x (some y) x).setParent x (some y)) := by
  simp only [rotateRight, hr, Option.bind_some]
  rfl

theorem rotateRight_mirror (h : Heap N M) (x : Fin N) (rt : Fin M) :
    rotateRight h x rt = (rotateLeft h.mirror x rt).map Heap.mirror := by
  cases hl : (h.cell x).left with
  | none => unfold rotateRight rotateLeft; rw [mirror_right, hl]; rfl
  | some y =>
    rw [rotateRight_eq h x y rt hl, rotateLeft_eq h.mirror x y rt hl]
    simp only [Option.map_some, Option.some.injEq, mirror_setParent, mirror_parent]
    congr 1
    rw [← relink_mirror]
    congr 2
    simp only [mirror_setLeft, mirror_setRight, mirror_setParent, mirror_setParentOf, mirror_left]
    rw [← mirror_setLeft, mirror_left]

theorem rotateLeft_mirror (h : Heap N M) (x : Fin N) (rt : Fin M) :
    rotateLeft h x rt = (rotateRight h.mirror x rt).map Heap.mirror := by
  rw [rotateRight_mirror, Heap.mirror_mirror, Option.map_map]
  cases rotateLeft h x rt <;> simp

@[simp] theorem ptr_mirror (t : T N) : t.mirror.ptr = t.ptr := by cases t <;> rfl
@[simp] theorem color_mirror (t : T N) : t.mirror.color = t.color := by cases t <;> rfl

@[simp] theorem inorder_mirror (t : T N) : t.mirror.inorder = t.inorder.reverse := by
  induction t with
  | leaf => rfl
  | node c l n r ihl ihr => simp [T.mirror, inorder, ihl, ihr]

@[simp] theorem kptr_mirror (k : List (Frame N)) : kptr (k.map Frame.mirror) = kptr k := by
  cases k with
  | nil => rfl
  | cons f k => cases f <;> rfl

theorem kleft_mirror (k : List (Frame N)) : kleft (k.map Frame.mirror) = (kright k).reverse := by
  induction k with
  | nil => rfl
  | cons f k ih => cases f <;> simp [kleft, kright, Frame.mirror, ih]

theorem kright_mirror (k : List (Frame N)) : kright (k.map Frame.mirror) = (kleft k).reverse := by
  induction k with
  | nil => rfl
  | cons f k ih => cases f <;> simp [kleft, kright, Frame.mirror, ih]

theorem linked_mirror {t : T N} {p : Option (Fin N)} (hl : Linked h rt p t) :
    Linked h.mirror rt p t.mirror := by
  induction t generalizing p with
  | leaf => trivial
  | node c l n r ihl ihr =>
    obtain ⟨a, b1, b2⟩ := hl
    refine ⟨?_, ihr b2, ihl b1⟩
    simp [Heap.mirror, a, Cell.mirror]

theorem linkedK_mirror {q : Option (Fin N)} (hl : LinkedK h rt k q) :
    LinkedK h.mirror rt (k.map Frame.mirror) q := by
  induction k generalizing q with
  | nil => exact hl
  | cons f k ih =>
    cases f with
    | inL c n r =>
      obtain ⟨a, b1, b2⟩ := hl
      refine ⟨?_, linked_mirror b1, ih b2⟩
      simp [Heap.mirror, a, Cell.mirror]
    | inR c l n =>
      obtain ⟨a, b1, b2⟩ := hl
      refine ⟨?_, linked_mirror b1, ih b2⟩
      simp [Heap.mirror, a, Cell.mirror]

theorem St.mirror {t : T N} (s : St h₀ rt L h k t) :
    St h₀.mirror rt L.reverse h.mirror (k.map Frame.mirror) t.mirror := by
  obtain ⟨a, b, o, d, e, f⟩ := s
  refine ⟨?_, ?_, ?_, ?_, ?_, f⟩
  · rw [ptr_mirror]; exact linkedK_mirror a
  · rw [kptr_mirror]; exact linked_mirror b
  · rw [kleft_mirror, kright_mirror, inorder_mirror, ← o]; simp
  · exact (List.reverse_perm L).nodup_iff.mpr d
  · intro x hx
    simp only [Heap.mirror]
    rw [e x (by simpa using hx)]

theorem St.unmirror {t : T N}
    (s : St h₀.mirror rt L.reverse h.mirror (k.map Frame.mirror) t.mirror) : St h₀ rt L h k t := by
  have := s.mirror
  simpa [Function.comp_def] using this

theorem St.rotateRight {c d : Color} {a b e : T N} {x y : Fin N}
    (s : St h₀ rt L h k (node c (node d a y b) x e)) :
    ∃ h', rotateRight h x rt = some h' ∧ St h₀ rt L h' k (node d a y (node c b x e)) := by
  obtain ⟨h', h1, h2⟩ := St.rotateLeft s.mirror
  refine ⟨h'.mirror, ?_, ?_⟩
  · rw [rotateRight_mirror, h1]; rfl
  · refine St.unmirror ?_
    simpa [T.mirror] using h2

theorem insertRotateRight_mirror (h : Heap N M) (n p g : Fin N) (rt : Fin M) :
    insertRotateRight h n p g rt =
      (insertRotateLeft h.mirror n p g rt).map fun (h, n) => (h.mirror, n) := by
  unfold insertRotateRight insertRotateLeft
  by_cases hb : (h.cell p).left = some n
  · rw [if_pos hb, if_pos (show (h.mirror.cell p).right = some n from hb), rotateRight_mirror]
    cases Tree.rotateLeft h.mirror p rt with
    | none => rfl
    | some j =>
      simp only [Option.map_some, Option.bind_some]
      rw [rotateLeft_mirror, ← mirror_setColor, ← mirror_setColor, Heap.mirror_mirror]
      simp [Function.comp_def]
  · rw [if_neg hb, if_neg (show ¬ (h.mirror.cell p).right = some n from hb), rotateLeft_mirror]
    simp [Function.comp_def]

theorem removeSiblingLeft_mirror (h : Heap N M) (p : Fin N) (rt : Fin M) :
    removeSiblingLeft h p rt = (removeSiblingRight h.mirror p rt).map fun (h, n) => (h.mirror, n) := by
  unfold removeSiblingLeft removeSiblingRight
  rw [mirror_right]
  cases (h.cell p).left with
  | none => rfl
  | some s =>
    simp only [Option.bind_some]
    by_cases hb : (h.cell s).color = .red
    · rw [if_pos hb, if_pos (show (h.mirror.cell s).color = .red from hb), rotateRight_mirror]
      simp only [mirror_setColor]
      cases Tree.rotateLeft ((h.mirror.setColor s .black).setColor p .red) p rt with
      | none => rfl
      | some j =>
        simp only [Option.map_some, Option.bind_some, mirror_left]
        cases (j.cell p).right <;> rfl
    · rw [if_neg hb, if_neg (show ¬ (h.mirror.cell s).color = .red from hb)]
      rfl

theorem removeRotateRight_mirror (h : Heap N M) (p s : Fin N) (rt : Fin M) :
    removeRotateRight h p s rt = (removeRotateLeft h.mirror p s rt).map Heap.mirror := by
  have fin : ∀ (h : Heap N M) (s : Fin N),
      Tree.rotateRight (((h.setColor s (h.cell p).color).setColor p .black).setColorOf
        (((h.setColor s (h.cell p).color).setColor p .black).cell s).left .black) p rt =
      (Tree.rotateLeft (((h.mirror.setColor s (h.mirror.cell p).color).setColor p .black).setColorOf
        (((h.mirror.setColor s (h.mirror.cell p).color).setColor p .black).cell s).right .black) p
        rt).map Heap.mirror := by
    intro h s
    rw [rotateRight_mirror]
    simp only [mirror_setColor, mirror_setColorOf, mirror_color]
    rw [← mirror_setColor, ← mirror_setColor, mirror_right]
  unfold removeRotateRight removeRotateLeft
  by_cases hb : h.isBlack (h.cell s).left = true
  · rw [if_pos hb, if_pos (show h.mirror.isBlack (h.mirror.cell s).right = true from hb),
      rotateLeft_mirror]
    simp only [mirror_setColor, mirror_setColorOf, mirror_left]
    cases Tree.rotateRight ((h.mirror.setColorOf (h.cell s).right .black).setColor s .red) s rt with
    | none => rfl
    | some j =>
      simp only [Option.map_some, Option.bind_some, mirror_left]
      cases hj : (j.cell p).right with
      | none => rfl
      | some s' =>
        simp only [Option.map_some, Option.bind_some]
        rw [fin]
        rfl
  · rw [if_neg hb, if_neg (show ¬ h.mirror.isBlack (h.mirror.cell s).right = true from hb)]
    simp only [Option.bind_some]
    exact fin h s

end Diminuto.Tree
