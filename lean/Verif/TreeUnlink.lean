import Verif.TreeRemove

/-!
# Lemmas about the Tree: taking nodes out, and putting one in the place of another
-/

namespace Diminuto.Tree

open Frame T

variable {N M : Nat} {h₀ h : Heap N M} {rt : Fin M} {L : List (Fin N)} {k : List (Frame N)}

theorem plug_append (k k' : List (Frame N)) (t : T N) : plug (k ++ k') t = plug k' (plug k t) := by
  induction k generalizing t with
  | nil => rfl
  | cons f k ih => cases f <;> exact ih _

theorem st_append {k' : List (Frame N)} {t : T N} :
    St h₀ rt L h (k ++ k') t ↔ St h₀ rt L h k' (plug k t) := by
  rw [st_plug, st_plug (k := k'), plug_append]

theorem setParentOf_cell_eq (h : Heap N M) (p q : Option (Fin N)) (z : Fin N) :
    (h.setParentOf p q).cell z = if p = some z then { h.cell z with parent := q } else h.cell z := by
  cases p with
  | none => simp [Heap.setParentOf]
  | some n =>
    simp only [Heap.setParentOf, Heap.setParent, setCell_cell, Option.some.injEq]
    by_cases hz : z = n
    · subst hz; simp
    · rw [if_neg hz, if_neg (fun h => hz h.symm)]

theorem setCell_setCell (h : Heap N M) (x : Fin N) (a b : Cell N M) :
    (h.setCell x a).setCell x b = h.setCell x b := by
  simp only [Heap.setCell, Heap.mk.injEq, and_true]
  funext z
  split <;> rfl

theorem setCell_self (h : Heap N M) (x : Fin N) : h.setCell x (h.cell x) = h := by
  cases h with
  | mk c t =>
    simp only [Heap.setCell, Heap.mk.injEq, and_true]
    funext z
    split
    · rename_i e; rw [e]
    · rfl

/-- Writing to a node that is not on the tree. -/
theorem St.setCell_out {t : T N} {x : Fin N} (s : St h₀ rt L h k t) (hx : x ∉ L) (c : Cell N M) :
    St (h₀.setCell x c) rt L (h.setCell x c) k t := by
  obtain ⟨a, b, o, d, e, f⟩ := s
  have hm : ∀ z, z ∈ L → (h.setCell x c).cell z = h.cell z := by
    intro z hz
    have : z ≠ x := by rintro rfl; exact hx hz
    simp [this]
  refine ⟨linkedK_congr (h := h) (fun z hz => hm z ?_) rfl a, linked_congr (fun z hz => hm z ?_) b, o, d,
    ?_, f⟩
  · rw [← o]; rcases hz with hz | hz <;> simp [hz]
  · rw [← o]; simp [hz]
  · intro z hz
    simp only [setCell_cell]
    split
    · rfl
    · exact e z hz

theorem Linked.setParentRoot {h' : Heap N M} {t : T N} {p q : Option (Fin N)} (hd : t.inorder.Nodup)
    (hl : Linked h rt p t)
    (hc : ∀ z ∈ t.inorder,
      h'.cell z = if t.ptr = some z then { h.cell z with parent := q } else h.cell z) :
    Linked h' rt q t := by
  refine linked_congr (h := h.setParentOf t.ptr q) ?_ (linked_setParentOf hd hl)
  intro z hz
  rw [hc z hz, setParentOf_cell_eq]

/-- Taking out a node that has at most one child. -/
theorem St.unlinkSimple {c : Color} {l r t : T N} {x err : Fin N}
    (s : St h₀ rt L h k (node c l x r)) (ht : (l = leaf ∧ t = r) ∨ (r = leaf ∧ t = l))
    (h₁ : Heap N M) (h1 : h₁ = relink (h.setParentOf t.ptr (kptr k)) (kptr k) rt x t.ptr err) :
    St (h₀.setCell x (h₁.cell x)) rt (kleft k ++ t.inorder ++ kright k) h₁ k t ∧
      h₁.cell x = h.cell x := by
  have hin : ∀ z, z ∈ t.inorder ↔ z ∈ l.inorder ∨ z ∈ r.inorder := by
    intro z
    rcases ht with ⟨rfl, rfl⟩ | ⟨rfl, rfl⟩ <;> simp [inorder]
  have hd : (kleft k ++ (node c l x r).inorder ++ kright k).Nodup := by rw [s.order]; exact s.nodup
  have hd' : (kleft k ++ t.inorder ++ kright k).Nodup := by
    rcases ht with ⟨rfl, rfl⟩ | ⟨rfl, rfl⟩ <;>
    · simp only [inorder, List.nodup_append, List.nodup_cons, List.mem_append, List.mem_cons] at hd ⊢
      grind
  have hm : ∀ z, z ∈ L ↔ (z ∈ kleft k ∨ z ∈ kright k) ∨ z = x ∨ z ∈ t.inorder := by
    intro z
    rw [← s.order, hin]
    simp only [inorder, List.mem_append, List.mem_cons]
    grind
  have hne : x ∉ t.inorder ∧ ∀ z, z ∈ kleft k ∨ z ∈ kright k → z ≠ x ∧ z ∉ t.inorder := by
    simp only [hin]
    simp only [inorder, List.nodup_append, List.nodup_cons, List.mem_append, List.mem_cons] at hd
    grind
  have hp : ∀ z, z ∈ (node c l x r).inorder → kptr k ≠ some z := by
    intro z hz hk
    have := hne.2 z (kptr_mem hk)
    simp only [inorder, List.mem_append, List.mem_cons] at hz
    rw [hin] at this
    grind
  obtain ⟨a, ⟨b1, b2, b3⟩, o, d, e, f⟩ := s
  have hlt : ∃ q, Linked h rt q t := by
    rcases ht with ⟨rfl, rfl⟩ | ⟨rfl, rfl⟩
    · exact ⟨_, b3⟩
    · exact ⟨_, b2⟩
  obtain ⟨q, hlt⟩ := hlt
  have hdt : t.inorder.Nodup := by
    simp only [List.nodup_append] at hd'
    exact hd'.1.2.1
  have gc : ∀ z, z ∉ t.inorder → (h.setParentOf t.ptr (kptr k)).cell z = h.cell z :=
    fun z hz => setParentOf_cell hz
  have gk : LinkedK (h.setParentOf t.ptr (kptr k)) rt k (some x) :=
    linkedK_congr (fun z hz => gc z (hne.2 z hz).2) (by rw [setParentOf_top]) a
  obtain ⟨r1, r2, r3⟩ := relink_linkedK (new := t.ptr) (err := err) (A := (node c l x r).inorder)
    (by simp [inorder]) hd gk
  rw [← h1] at r1 r2 r3
  have hx1 : h₁.cell x = h.cell x := by
    rw [r2 x (hp x (by simp [inorder])), gc x hne.1]
  refine ⟨⟨r1, ?_, rfl, hd', ?_, ?_⟩, hx1⟩
  · refine linked_congr (fun z hz => r2 z (hp z ?_)) (linked_setParentOf hdt hlt)
    simp only [inorder, List.mem_append, List.mem_cons]
    rcases (hin z).mp hz with h | h
    · exact Or.inl h
    · exact Or.inr (Or.inr h)
  · intro z hz
    simp only [setCell_cell]
    split
    · rename_i e; rw [e]
    · rename_i hzx
      simp only [List.mem_append] at hz
      have hzL : z ∉ L := by rw [hm]; grind
      have : kptr k ≠ some z := fun hk => hz (by rcases kptr_mem hk with h | h <;> simp [h])
      rw [r2 z this, gc z (fun h => hz (by simp [h])), e z hzL]
  · intro r hr
    rw [r3 r hr, setParentOf_top, f r hr]; rfl

/-- Putting the node `y` in the place of `x`. -/
theorem St.subst {c : Color} {l r : T N} {x y : Fin N} {h' : Heap N M}
    (s : St h₀ rt L h k (node c l x r)) (hy : y ∉ L)
    (hk : LinkedK h' rt k (some y)) (cy : h'.cell y = ⟨kptr k, l.ptr, r.ptr, some rt, c, false⟩)
    (cl : ∀ z, z ∈ l.inorder ∨ z ∈ r.inorder → h'.cell z =
      if l.ptr = some z ∨ r.ptr = some z then { h.cell z with parent := some y } else h.cell z)
    (co : ∀ z, z ∉ L → z ≠ y → h'.cell z = h.cell z) (ct : ∀ q, q ≠ rt → h'.top q = h.top q) :
    St ((h₀.setCell y (h.cell y)).setCell x (h'.cell x)) rt (kleft k ++ (node c l y r).inorder ++ kright k)
      h' k (node c l y r) := by
  have hd : (kleft k ++ (node c l x r).inorder ++ kright k).Nodup := by rw [s.order]; exact s.nodup
  rw [← s.order] at hy co
  obtain ⟨a, ⟨b1, b2, b3⟩, o, d, e, f⟩ := s
  rw [← o] at e
  have hdis : l.inorder.Nodup ∧ r.inorder.Nodup ∧ (∀ z ∈ l.inorder, z ∉ r.inorder) := by
    simp only [inorder, List.nodup_append, List.nodup_cons, List.mem_append, List.mem_cons] at hd
    grind
  refine ⟨hk, ⟨cy, ?_, ?_⟩, rfl, ?_, ?_, ?_⟩
  · refine Linked.setParentRoot hdis.1 b2 (fun z hz => ?_)
    rw [cl z (Or.inl hz)]
    have : r.ptr ≠ some z := fun h => hdis.2.2 z hz (ptr_mem h)
    simp only [this, or_false]
  · refine Linked.setParentRoot hdis.2.1 b3 (fun z hz => ?_)
    rw [cl z (Or.inr hz)]
    have : l.ptr ≠ some z := fun h => hdis.2.2 z (ptr_mem h) hz
    simp only [this, false_or]
  · simp only [inorder, List.nodup_append, List.nodup_cons, List.mem_append, List.mem_cons] at hd hy ⊢
    grind
  · intro z hz
    simp only [setCell_cell]
    split
    · rename_i e; rw [e]
    rename_i hzx
    simp only [inorder, List.mem_append, List.mem_cons] at hz
    have hzy : z ≠ y := by rintro rfl; simp at hz
    rw [if_neg hzy]
    have : z ∉ kleft k ++ (node c l x r).inorder ++ kright k := by
      simp only [inorder, List.mem_append, List.mem_cons]; grind
    rw [co z this hzy, e z this]
  · intro q hq
    rw [ct q hq, f q hq]; rfl

end Diminuto.Tree
