import Verif.TreeLemmas

/-!
# Lemmas about the Tree: rotation
-/

namespace Diminuto.Tree

open Frame T

variable {N M : Nat} {h₀ h : Heap N M} {rt : Fin M} {L : List (Fin N)} {k : List (Frame N)}

theorem linkedK_nodup_aux {n o : Fin N} {f : Frame N} {A : List (Fin N)}
    (hd : (kleft (f :: k) ++ A ++ kright (f :: k)).Nodup) (ho : o ∈ A) (hk : kptr (f :: k) = some n) :
    o ≠ n ∧ (∀ x, x ∈ kleft k ∨ x ∈ kright k → x ≠ n ∧ x ≠ o) ∧ (kleft k ++ n :: kright k).Nodup ∧
    (match f with
      | inL _ _ r => o ∉ r.inorder ∧ n ∉ r.inorder
      | inR _ l _ => o ∉ l.inorder ∧ n ∉ l.inorder) := by
  cases f with
  | inL c m r =>
    simp only [kptr, Option.some.injEq] at hk
    subst hk
    simp only [kleft, kright, List.nodup_append, List.mem_append, List.mem_cons,
      List.nodup_cons, List.cons_append] at hd ⊢
    grind
  | inR c l m =>
    simp only [kptr, Option.some.injEq] at hk
    subst hk
    simp only [kleft, kright, List.nodup_append, List.mem_append, List.mem_cons, List.not_mem_nil,
      List.nodup_cons] at hd ⊢
    grind

theorem ptr_mem {t : T N} {x : Fin N} (h : t.ptr = some x) : x ∈ t.inorder := by
  cases t with
  | leaf => simp [ptr] at h
  | node c l n r => simp only [ptr, Option.some.injEq] at h; subst h; simp [inorder]

theorem relink_linkedK {old err : Fin N} {new : Option (Fin N)} {A : List (Fin N)}
    (ho : old ∈ A) (hd : (kleft k ++ A ++ kright k).Nodup) (hl : LinkedK h rt k (some old)) :
    LinkedK (relink h (kptr k) rt old new err) rt k new ∧
    (∀ x, kptr k ≠ some x → (relink h (kptr k) rt old new err).cell x = h.cell x) ∧
    (∀ r, r ≠ rt → (relink h (kptr k) rt old new err).top r = h.top r) := by
  cases k with
  | nil => simp +contextual [relink, kptr, LinkedK]
  | cons f k =>
    cases f with
    | inL c n r =>
      obtain ⟨_, h2, _, h4⟩ := linkedK_nodup_aux hd ho rfl
      obtain ⟨a1, a2, a3⟩ := hl
      have hr : relink h (kptr (inL c n r :: k)) rt old new err = h.setLeft n new := by
        simp [relink, kptr, a1]
      rw [hr]
      refine ⟨⟨?_, linked_congr (fun x hx => ?_) a2, linkedK_congr (h := h) (fun x hx => ?_) rfl a3⟩,
        fun x hx => ?_, fun _ _ => rfl⟩
      · simp [Heap.setLeft, a1]
      · have : x ≠ n := by rintro rfl; exact h4.2 hx
        simp [Heap.setLeft, this]
      · simp [Heap.setLeft, (h2 x hx).1]
      · have : x ≠ n := by rintro rfl; exact hx rfl
        simp [Heap.setLeft, this]
    | inR c l n =>
      obtain ⟨_, h2, _, h4⟩ := linkedK_nodup_aux hd ho rfl
      obtain ⟨a1, a2, a3⟩ := hl
      have hp : l.ptr ≠ some old := fun e => h4.1 (ptr_mem e)
      have hr : relink h (kptr (inR c l n :: k)) rt old new err = h.setRight n new := by
        simp [relink, kptr, a1, hp]
      rw [hr]
      refine ⟨⟨?_, linked_congr (fun x hx => ?_) a2, linkedK_congr (h := h) (fun x hx => ?_) rfl a3⟩,
        fun x hx => ?_, fun _ _ => rfl⟩
      · simp [Heap.setRight, a1]
      · have : x ≠ n := by rintro rfl; exact h4.2 hx
        simp [Heap.setRight, this]
      · simp [Heap.setRight, (h2 x hx).1]
      · have : x ≠ n := by rintro rfl; exact hx rfl
        simp [Heap.setRight, this]

theorem kptr_mem {x : Fin N} (h : kptr k = some x) : x ∈ kleft k ∨ x ∈ kright k := by
  cases k with
  | nil => simp [kptr] at h
  | cons f k =>
    cases f <;> simp only [kptr, Option.some.injEq] at h <;> subst h <;> simp [kleft, kright]

theorem linked_setParentOf {t : T N} {p q : Option (Fin N)} (hd : t.inorder.Nodup)
    (hl : Linked h rt p t) : Linked (h.setParentOf t.ptr q) rt q t := by
  cases t with
  | leaf => trivial
  | node c l n r =>
    obtain ⟨a, b1, b2⟩ := hl
    simp only [inorder, List.nodup_append, List.nodup_cons, List.mem_cons] at hd
    refine ⟨?_, linked_congr (fun x hx => ?_) b1, linked_congr (fun x hx => ?_) b2⟩
    · simp [Heap.setParentOf, Heap.setParent, ptr, a]
    · have : x ≠ n := by rintro rfl; grind
      simp [Heap.setParentOf, Heap.setParent, ptr, this]
    · have : x ≠ n := by rintro rfl; grind
      simp [Heap.setParentOf, Heap.setParent, ptr, this]

theorem setParentOf_cell {t : T N} {q : Option (Fin N)} {x : Fin N} (hx : x ∉ t.inorder) :
    (h.setParentOf t.ptr q).cell x = h.cell x := by
  cases t with
  | leaf => rfl
  | node c l n r =>
    have : x ≠ n := by rintro rfl; simp [inorder] at hx
    simp [Heap.setParentOf, Heap.setParent, ptr, this]

theorem setParentOf_top {p q : Option (Fin N)} : (h.setParentOf p q).top = h.top := by
  cases p <;> rfl

/-- `rotate_left` with its tests written as `relink`. -/
theorem rotateLeft_eq (h : Heap N M) (x y : Fin N) (rt : Fin M) (hr : (h.cell x).right = some y) :
    rotateLeft h x rt = some
      ((relink ((((h.setRight x (h.cell y).left).setParentOf ((h.setRight x (h.cell y).left).cell y).left
        (some x)).setLeft y (some x)).setParent y (h.cell x).parent)
        (h.cell x).parent rt x (some y) x).setParent x (some y)) := by
  simp only [rotateLeft, hr, Option.bind_some]
  rfl

theorem St.rotateLeft {c d : Color} {a b e : T N} {x y : Fin N}
    (s : St h₀ rt L h k (node c a x (node d b y e))) :
    ∃ h', rotateLeft h x rt = some h' ∧ St h₀ rt L h' k (node d (node c a x b) y e) := by
  have hd : (kleft k ++ (node c a x (node d b y e)).inorder ++ kright k).Nodup := by
    rw [s.order]; exact s.nodup
  have hx := s.below.1
  have hy := s.below.2.2.1
  rw [rotateLeft_eq h x y rt (by rw [hx]; rfl)]
  refine ⟨_, rfl, ?_⟩
  have hm : ∀ z, z ∉ L → z ≠ x ∧ z ≠ y ∧ z ∉ b.inorder ∧ kptr k ≠ some z := by
    intro z hz
    rw [← s.order] at hz
    have := @kptr_mem N k z
    simp only [inorder, List.mem_append, List.mem_cons] at hz
    grind
  obtain ⟨ar, ⟨b1, b2, b3, b4, b5⟩, o, dd, ce, tp⟩ := s
  have hxy : x ≠ y := by
    rintro rfl
    simp only [inorder, List.nodup_append, List.nodup_cons, List.mem_append, List.mem_cons] at hd
    grind
  have hf : x ∉ a.inorder ∧ x ∉ b.inorder ∧ x ∉ e.inorder ∧ y ∉ a.inorder ∧ y ∉ b.inorder ∧
      y ∉ e.inorder ∧ (∀ z ∈ a.inorder, z ∉ b.inorder) ∧ (∀ z ∈ b.inorder, z ∉ e.inorder) ∧
      b.inorder.Nodup ∧ (∀ z, z ∈ kleft k ∨ z ∈ kright k → z ≠ x ∧ z ≠ y ∧ z ∉ a.inorder ∧
        z ∉ b.inorder ∧ z ∉ e.inorder) := by
    simp only [inorder, List.nodup_append, List.nodup_cons, List.mem_append, List.mem_cons] at hd
    grind
  obtain ⟨f1, f2, f3, f4, f5, f6, f7, f8, f9, f10⟩ := hf
  have hp : ∀ z, z ∈ (node c a x (node d b y e)).inorder → kptr k ≠ some z := by
    intro z hz hk
    have := f10 z (kptr_mem hk)
    simp only [inorder, List.mem_append, List.mem_cons] at hz
    grind
  rw [hx]
  simp only [hy]
  have e1 : ((h.setRight x b.ptr).cell y).left = b.ptr := by
    simp [Heap.setRight, hxy.symm, hy]
  rw [e1]
  generalize hg : ((((h.setRight x b.ptr).setParentOf b.ptr (some x)).setLeft y (some x)).setParent y
    (kptr k)) = g
  have gx : g.cell x = ⟨kptr k, a.ptr, b.ptr, some rt, c, false⟩ := by
    subst hg
    simp [Heap.setParent, Heap.setLeft, hxy, setParentOf_cell f2, Heap.setRight, hx]
  have gy : g.cell y = ⟨kptr k, some x, e.ptr, some rt, d, false⟩ := by
    subst hg
    simp [Heap.setParent, Heap.setLeft, setParentOf_cell f5, Heap.setRight, hy, hxy.symm]
  have gz : ∀ z, z ≠ x → z ≠ y → z ∉ b.inorder → g.cell z = h.cell z := by
    intro z h1 h2 h3
    subst hg
    simp [Heap.setParent, Heap.setLeft, h2, setParentOf_cell h3, Heap.setRight, h1]
  have gt : g.top = h.top := by
    subst hg
    simp [Heap.setParent, Heap.setLeft, setParentOf_top, Heap.setRight, Heap.setCell]
  have gb : Linked g rt (some x) b := by
    subst hg
    refine linked_congr (h := (h.setRight x b.ptr).setParentOf b.ptr (some x)) ?_ ?_
    · intro z hz
      have : z ≠ y := by rintro rfl; exact f5 hz
      simp [Heap.setParent, Heap.setLeft, this]
    · refine linked_setParentOf (p := some y) f9 (linked_congr (fun z hz => ?_) b4)
      have : z ≠ x := by rintro rfl; exact f2 hz
      simp [Heap.setRight, this]
  have gk : LinkedK g rt k (some x) :=
    linkedK_congr (fun z hz => gz z (f10 z hz).1 (f10 z hz).2.1 (f10 z hz).2.2.2.1) (by rw [gt]) ar
  obtain ⟨r1, r2, r3⟩ := relink_linkedK (new := some y) (err := x) (A := (node c a x (node d b y e)).inorder)
    (by simp [inorder]) hd gk
  have r2' : ∀ z, z ∈ (node c a x (node d b y e)).inorder →
      (relink g (kptr k) rt x (some y) x).cell z = g.cell z := fun z hz => r2 z (hp z hz)
  generalize relink g (kptr k) rt x (some y) x = j at r1 r2 r2' r3
  have jn : ∀ z, z ≠ x → (j.setParent x (some y)).cell z = j.cell z := by
    intro z hz; simp [Heap.setParent, hz]
  have yi : y ∈ (node c a x (node d b y e)).inorder := by simp [inorder]
  have xi : x ∈ (node c a x (node d b y e)).inorder := by simp [inorder]
  refine ⟨linkedK_congr (h := j) (fun z hz => jn z (f10 z hz).1) rfl r1, ⟨?_, ⟨?_, ?_, ?_⟩, ?_⟩, ?_, dd, ?_, ?_⟩
  · rw [jn y hxy.symm, r2' y yi, gy]; rfl
  · simp [Heap.setParent, r2' x xi, gx]
  · refine linked_congr (fun z hz => ?_) b2
    have h1 : z ≠ x := by rintro rfl; exact f1 hz
    have h2 : z ≠ y := by rintro rfl; exact f4 hz
    rw [jn z h1, r2' z (by simp [inorder, hz]), gz z h1 h2 (f7 z hz)]
  · refine linked_congr (fun z hz => ?_) gb
    have h1 : z ≠ x := by rintro rfl; exact f2 hz
    rw [jn z h1, r2' z (by simp [inorder, hz])]
  · refine linked_congr (fun z hz => ?_) b5
    have h1 : z ≠ x := by rintro rfl; exact f3 hz
    have h2 : z ≠ y := by rintro rfl; exact f6 hz
    rw [jn z h1, r2' z (by simp [inorder, hz]), gz z h1 h2 (fun hb => f8 z hb hz)]
  · rw [← o]; simp [inorder]
  · intro z hz
    obtain ⟨m1, m2, m3, m4⟩ := hm z hz
    rw [jn z m1, r2 z m4, gz z m1 m2 m3, ce z hz]
  · intro r hr
    rw [show (j.setParent x (some y)).top r = j.top r from rfl, r3 r hr, gt, tp r hr]

end Diminuto.Tree
