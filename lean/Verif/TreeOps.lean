import Verif.TreeUnlink
import Mathlib.Data.Fintype.Card

/-!
# Lemmas about the Tree: removal, replacement and insertion
-/

namespace Diminuto.Tree

open Frame T

variable {N M : Nat} {h₀ h : Heap N M} {rt : Fin M} {L : List (Fin N)} {k : List (Frame N)}

theorem kleft_append (k k' : List (Frame N)) : kleft (k ++ k') = kleft k' ++ kleft k := by
  induction k with
  | nil => simp [kleft]
  | cons f k ih => cases f <;> simp [kleft, ih]

theorem kright_append (k k' : List (Frame N)) : kright (k ++ k') = kright k ++ kright k' := by
  induction k with
  | nil => simp [kright]
  | cons f k ih => cases f <;> simp [kright, ih]

theorem leftmost_spec {c : Color} {l r : T N} {x : Fin N} {p : Option (Fin N)} {fuel : Nat}
    (hl : Linked h rt p (node c l x r)) (hf : (node c l x r).inorder.length ≤ fuel) :
    ∃ (k₂ : List (Frame N)) (c₂ : Color) (y : Fin N) (r₂ : T N),
      node c l x r = plug k₂ (node c₂ leaf y r₂) ∧ kleft k₂ = [] ∧ leftmost h fuel x = some y := by
  induction l generalizing c x r p fuel with
  | leaf =>
    refine ⟨[], c, x, r, rfl, rfl, ?_⟩
    cases fuel with
    | zero => simp [inorder] at hf
    | succ fuel => simp [leftmost, hl.1, ptr]
  | node lc ll lx lr ih _ =>
    cases fuel with
    | zero => simp [inorder] at hf
    | succ fuel =>
      obtain ⟨k₂, c₂, y, r₂, e1, e2, e3⟩ := ih (fuel := fuel) hl.2.1 (by
        simp only [inorder, List.length_append, List.length_cons] at hf ⊢; omega)
      refine ⟨k₂ ++ [inL c x r], c₂, y, r₂, ?_, ?_, ?_⟩
      · rw [plug_append, ← e1]; rfl
      · rw [kleft_append, e2]; rfl
      · simp only [leftmost, hl.1, ptr]
        exact e3

theorem rightmost_mirror (h : Heap N M) (fuel : Nat) (x : Fin N) :
    rightmost h fuel x = leftmost h.mirror fuel x := by
  induction fuel generalizing x with
  | zero => rfl
  | succ fuel ih =>
    unfold rightmost leftmost
    rw [mirror_left]
    cases (h.cell x).right with
    | none => rfl
    | some r => exact ih r

theorem nodup_length {L : List (Fin N)} (hd : L.Nodup) : L.length ≤ N := by
  simpa using hd.length_le_card

/-- The copying of the fields of one node to another. -/
theorem copy_fields (h : Heap N M) {x y : Fin N} (hxy : y ≠ x) (j₁ j₂ j₃ j₄ j₅ : Heap N M)
    (e1 : j₁ = h.setColor y (h.cell x).color) (e2 : j₂ = j₁.setParent y (j₁.cell x).parent)
    (e3 : j₃ = j₂.setLeft y (j₂.cell x).left) (e4 : j₄ = j₃.setRight y (j₃.cell x).right)
    (e5 : j₅ = j₄.setRoot y (j₄.cell x).root) :
    j₅ = h.setCell y { h.cell x with error := (h.cell y).error } := by
  subst e1 e2 e3 e4 e5
  simp only [Heap.setColor, Heap.setParent, Heap.setLeft, Heap.setRight, Heap.setRoot, Heap.setCell,
    Heap.mk.injEq, and_true, hxy.symm, if_false, if_true]
  funext z
  split <;> rfl

theorem relink_setCell (h : Heap N M) {q : Option (Fin N)} {x y err : Fin N} {new : Option (Fin N)}
    {c : Cell N M} (hq : q ≠ some y) (hl : ∀ p, q = some p → (h.cell p).left = some x ∨ (h.cell p).right = some x) :
    relink (h.setCell y c) q rt x new err = (relink h q rt x new err).setCell y c := by
  cases q with
  | none => rfl
  | some p =>
    have hpy : p ≠ y := fun e => hq (by rw [e])
    unfold relink
    simp only [setCell_cell, hpy, if_false]
    by_cases h1 : (h.cell p).left = some x
    · simp only [h1, if_true, Heap.setLeft, Heap.setCell, Heap.mk.injEq, and_true, hpy, if_false]
      funext z
      by_cases h3 : z = p
      · rw [if_pos h3, if_neg (by rw [h3]; exact hpy), if_pos h3]
      · rw [if_neg h3]
        simp only [h3, if_false]
    · have h2 := (hl p rfl).resolve_left h1
      simp only [h1, if_false, h2, if_true, Heap.setRight, Heap.setCell, Heap.mk.injEq, and_true, hpy]
      funext z
      by_cases h3 : z = p
      · rw [if_pos h3, if_neg (by rw [h3]; exact hpy), if_pos h3]
      · rw [if_neg h3]
        simp only [h3, if_false]

theorem St.kptr_ne {t : T N} {z : Fin N} (s : St h₀ rt L h k t) (hz : z ∈ t.inorder) : kptr k ≠ some z := by
  intro hk
  have := s.nodup
  rw [← s.order] at this
  have hm := kptr_mem hk
  simp only [List.nodup_append, List.mem_append] at this
  grind

/-- Putting a node in the place of another, in the order of `diminuto_tree_remove`. -/
theorem St.substR {c : Color} {l r : T N} {x y err : Fin N} {h' : Heap N M}
    (s : St h₀ rt L h k (node c l x r)) (hy : y ∉ L) (he : (h.cell y).error = false)
    (e' : h' = ((relink (h.setCell y { h.cell x with error := (h.cell y).error }) (kptr k) rt x (some y)
      err).setParentOf l.ptr (some y)).setParentOf r.ptr (some y)) :
    St ((h₀.setCell y (h.cell y)).setCell x (h'.cell x)) rt (kleft k ++ (node c l y r).inorder ++ kright k)
      h' k (node c l y r) := by
  have hd : (kleft k ++ (node c l x r).inorder ++ kright k).Nodup := by rw [s.order]; exact s.nodup
  have hyo := hy
  rw [← s.order] at hyo
  have hx := s.cell
  have hyk : ∀ z, z ∈ kleft k ∨ z ∈ kright k → z ≠ y := by
    rintro z hz rfl
    simp only [List.mem_append] at hyo
    grind
  have hyi : y ∉ (node c l x r).inorder := by
    simp only [List.mem_append] at hyo; grind
  simp only [inorder, List.mem_append, List.mem_cons, not_or] at hyi
  have hkL : ∀ z, z ∈ kleft k ∨ z ∈ kright k → z ∈ L := by
    intro z hz; rw [← s.order]; rcases hz with hz | hz <;> simp [hz]
  have hki : ∀ z, z ∈ kleft k ∨ z ∈ kright k → z ∉ (node c l x r).inorder := by
    intro z hz
    simp only [List.nodup_append, List.mem_append] at hd; grind
  rw [hx, he] at e'
  have gk : LinkedK (h.setCell y ⟨kptr k, l.ptr, r.ptr, some rt, c, false⟩) rt k (some x) :=
    linkedK_congr (h := h) (fun z hz => by simp [hyk z hz]) rfl s.around
  obtain ⟨r1, r2, r3⟩ := relink_linkedK (new := some y) (err := err) (A := (node c l x r).inorder)
    (by simp [inorder]) hd gk
  generalize relink (h.setCell y ⟨kptr k, l.ptr, r.ptr, some rt, c, false⟩) (kptr k) rt x (some y) err = j
    at e' r1 r2 r3
  have hky : kptr k ≠ some y := fun hk => hyk y (kptr_mem hk) rfl
  refine s.subst hy ?_ ?_ ?_ ?_ ?_
  · subst e'
    refine linkedK_congr (h := j) (fun z hz => ?_) ?_ r1
    · have h1 := hki z hz
      simp only [inorder, List.mem_append, List.mem_cons, not_or] at h1
      rw [setParentOf_cell h1.2.2, setParentOf_cell h1.1]
    · rw [setParentOf_top, setParentOf_top]
  · subst e'
    rw [setParentOf_cell hyi.2.2, setParentOf_cell hyi.1, r2 y hky]
    simp
  · intro z hz
    subst e'
    have h1 : kptr k ≠ some z := s.kptr_ne (by simp only [inorder, List.mem_append, List.mem_cons]; grind)
    have h2 : z ≠ y := by rintro rfl; grind
    rw [setParentOf_cell_eq, setParentOf_cell_eq, r2 z h1]
    simp only [setCell_cell, h2, if_false]
    by_cases h3 : l.ptr = some z <;> by_cases h4 : r.ptr = some z <;> simp [h3, h4]
  · intro z hz hzy
    subst e'
    have h1 : kptr k ≠ some z := fun hk => hz (hkL z (kptr_mem hk))
    rw [← s.order] at hz
    simp only [inorder, List.mem_append, List.mem_cons, not_or] at hz
    rw [setParentOf_cell hz.1.2.2.2, setParentOf_cell hz.1.2.1, r2 z h1]
    simp [hzy]
  · intro q hq
    subst e'
    rw [setParentOf_top, setParentOf_top, r3 q hq]; rfl

theorem setParentOf_some (h : Heap N M) (n : Fin N) (q : Option (Fin N)) :
    h.setParentOf (some n) q = h.setParent n q := rfl

/-- Taking out a node that has two children: its successor takes its place. -/
theorem St.unlinkSuccessor {c rc : Color} {l rl rr : T N} {x rx : Fin N}
    (s : St h₀ rt L h k (node c l x (node rc rl rx rr))) (hl : l ≠ leaf) :
    ∃ (h₁ : Heap N M) (k₂ : List (Frame N)) (c₂ : Color) (y : Fin N) (r₂ : T N),
      node rc rl rx rr = plug k₂ (node c₂ leaf y r₂) ∧ kleft k₂ = [] ∧
      unlinkSuccessor h x rx rt = some (h₁, r₂.ptr, kptr (k₂ ++ inR c l y :: k), c₂) ∧
      St (h₀.setCell x (h₁.cell x)) rt
        (kleft (k₂ ++ inR c l y :: k) ++ r₂.inorder ++ kright (k₂ ++ inR c l y :: k)) h₁
        (k₂ ++ inR c l y :: k) r₂ := by
  have hlen : (node rc rl rx rr).inorder.length ≤ N := by
    have := nodup_length s.nodup
    rw [← s.order] at this
    simp only [inorder, List.length_append, List.length_cons] at this ⊢
    omega
  obtain ⟨k₂, c₂, y, r₂, e1, e2, e3⟩ := leftmost_spec s.below.2.2 hlen
  have sy : St h₀ rt L h (k₂ ++ inR c l x :: k) (node c₂ leaf y r₂) := by
    rw [st_append, st_inR, ← e1]; exact s
  have hy := sy.cell
  obtain ⟨q, hq⟩ : ∃ q, kptr (k₂ ++ inR c l x :: k) = some q := by
    cases k₂ with
    | nil => exact ⟨x, rfl⟩
    | cons f k₂ => cases f <;> exact ⟨_, rfl⟩
  have hxL : x ∈ L := s.mem
  have hfacts : y ≠ x ∧ x ∉ r₂.inorder ∧ y ∉ l.inorder ∧ y ∉ r₂.inorder := by
    have := sy.nodup
    rw [← sy.order, kleft_append, kright_append] at this
    simp only [kleft, inorder, List.nodup_append, List.mem_append, List.mem_cons, List.nodup_cons,
      List.not_mem_nil] at this
    grind
  obtain ⟨hyx, hxr, hyl, hyr⟩ := hfacts
  -- the successor is taken out
  have hA : (if q = x then (h.setParentOf r₂.ptr (some q)).setRight q r₂.ptr
      else (h.setParentOf r₂.ptr (some q)).setLeft q r₂.ptr) =
      relink (h.setParentOf r₂.ptr (some q)) (some q) rt y r₂.ptr y := by
    cases k₂ with
    | nil =>
      have : x = q := by simpa [kptr] using hq
      subst this
      have hcx : ((h.setParentOf r₂.ptr (some x)).cell x) = h.cell x := setParentOf_cell hxr
      have hne : l.ptr ≠ some y := fun e => hyl (ptr_mem e)
      have hcell := (st_inR.mp sy).cell
      unfold relink
      simp only [if_true, hcx, hcell]
      rw [if_neg hne, if_pos (show (node c₂ leaf y r₂).ptr = some y from rfl)]
    | cons f k₂ =>
      cases f with
      | inR d a b => simp [kleft] at e2
      | inL d a b =>
        have : a = q := by simpa [kptr] using hq
        subst this
        have hax : a ≠ x ∧ a ∉ r₂.inorder := by
          have := sy.nodup
          rw [← sy.order] at this
          simp only [List.cons_append, kleft, kright, kleft_append, kright_append, inorder,
            List.nodup_append, List.mem_append, List.mem_cons, List.nodup_cons, List.not_mem_nil] at this
          grind
        have hca : ((h.setParentOf r₂.ptr (some a)).cell a) = h.cell a := setParentOf_cell hax.2
        have hcell := (st_inL.mp sy).cell
        unfold relink
        simp only [hax.1, if_false, hca, hcell]
        rw [if_pos (show (node c₂ leaf y r₂).ptr = some y from rfl)]
  obtain ⟨sA, hyA⟩ := sy.unlinkSimple (t := r₂) (err := y) (Or.inl ⟨rfl, rfl⟩) _ rfl
  rw [hq] at sA hyA
  generalize hg : relink (h.setParentOf r₂.ptr (some q)) (some q) rt y r₂.ptr y = g at hA sA hyA
  -- and put in the place of the node
  have sB := st_inR.mp (st_append.mp sA)
  have hyL : y ∉ kleft (k₂ ++ inR c l x :: k) ++ r₂.inorder ++ kright (k₂ ++ inR c l x :: k) := by
    have := sy.nodup
    rw [← sy.order] at this
    simp only [inorder, List.nodup_append, List.nodup_cons, List.mem_append, List.mem_cons] at this ⊢
    grind
  have hgx := sB.cell
  have sC := sB.substR (err := y) hyL (by rw [hyA, hy]) rfl
  -- the heap is the one of the code
  obtain ⟨lc, ll, lx, lr, rfl⟩ : ∃ lc ll lx lr, l = node lc ll lx lr := by
    cases l with
    | leaf => exact absurd rfl hl
    | node a b c d => exact ⟨a, b, c, d, rfl⟩
  generalize hj : relink (g.setCell y { g.cell x with error := (g.cell y).error }) (kptr k) rt x (some y) y
    = j at sC
  have hjx : j.cell x = ⟨kptr k, some lx, (plug k₂ r₂).ptr, some rt, c, false⟩ := by
    have gk : LinkedK (g.setCell y { g.cell x with error := (g.cell y).error }) rt k (some x) := by
      refine linkedK_congr (h := g) (fun z hz => ?_) rfl sB.around
      have : z ≠ y := by
        rintro rfl
        apply hyL
        rw [kleft_append, kright_append]
        rcases hz with hz | hz <;> simp [kleft, kright, hz]
      simp [this]
    have hd := sB.nodup
    rw [← sB.order] at hd
    obtain ⟨_, r2, _⟩ := relink_linkedK (new := some y) (err := y)
      (A := (node c (node lc ll lx lr) x (plug k₂ r₂)).inorder) (by simp [inorder]) hd gk
    rw [hj] at r2
    rw [r2 x (sB.kptr_ne (by simp [inorder]))]
    simp only [setCell_cell, hyx.symm, if_false]
    exact hgx
  have hjp : ((j.setParentOf (some lx) (some y)).cell x).right = (plug k₂ r₂).ptr := by
    rw [setParentOf_cell_eq]
    split
    · rw [hjx]
    · rw [hjx]
  refine ⟨(j.setParentOf (some lx) (some y)).setParentOf (plug k₂ r₂).ptr (some y), k₂, c₂, y, r₂, e1, e2,
    ?_, ?_⟩
  · unfold Tree.unlinkSuccessor
    rw [e3]
    simp only [Option.bind_some, hy, hq]
    rw [hA, copy_fields g hyx _ _ _ _ _ rfl rfl rfl rfl rfl]
    have hgc : (g.setCell y { g.cell x with error := (g.cell y).error }).cell x = g.cell x := by
      simp [hyx.symm]
    rw [hgc, hgx]
    simp only []
    rw [hgx] at hj
    rw [hj, hjx]
    simp only [Option.bind_some]
    rw [← setParentOf_some, hjp]
    simp only [Option.some.injEq, Prod.mk.injEq, true_and, and_true]
    cases k₂ with
    | nil =>
      have : x = q := by simpa [kptr] using hq
      simp [this, kptr]
    | cons f k₂ =>
      cases f with
      | inR d a b => simp [kleft] at e2
      | inL d a b =>
        have ha : a = q := by simpa [kptr] using hq
        subst ha
        have hax : a ≠ x := by
          have := sy.nodup
          rw [← sy.order] at this
          simp only [List.cons_append, kleft, kright, kleft_append, kright_append, inorder,
            List.nodup_append, List.mem_append, List.mem_cons, List.nodup_cons, List.not_mem_nil] at this
          grind
        simp [kptr, hax]
  · rw [st_append, st_inR]
    refine ⟨sC.around, sC.below, ?_, ?_, ?_, ?_⟩
    · rw [kleft_append, kright_append, e2]
      simp [kleft, kright, inorder, inorder_plug, e2]
    · have := sC.nodup
      rw [kleft_append, kright_append, e2]
      simpa [kleft, kright, inorder, inorder_plug, e2] using this
    · intro z hz
      have h1 := sC.cells z (by
        rw [kleft_append, kright_append, e2] at hz
        simpa [kleft, kright, inorder, inorder_plug, e2] using hz)
      rw [setCell_setCell] at h1
      have hzy : z ≠ y := by
        rintro rfl
        apply hz
        rw [kleft_append]; simp [kleft]
      refine h1.trans ?_
      simp [hzy]
      rfl
    · exact sC.tops

end Diminuto.Tree
