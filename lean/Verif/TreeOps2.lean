import Verif.TreeOps

/-!
# Lemmas about the Tree: what each operation does to the tree that a root pointer leads to
-/

namespace Diminuto.Tree

open Frame T

variable {N M : Nat} {h₀ h : Heap N M} {rt : Fin M} {L : List (Fin N)} {k : List (Frame N)}

/-- The state of a node that is not on a tree. -/
def orphan : Cell N M := ⟨none, none, none, none, .red, false⟩

theorem exists_plug {t : T N} {x : Fin N} (hx : x ∈ t.inorder) :
    ∃ (k : List (Frame N)) (c : Color) (l r : T N), t = plug k (node c l x r) := by
  induction t with
  | leaf => simp [inorder] at hx
  | node c l n r ihl ihr =>
    simp only [inorder, List.mem_append, List.mem_cons] at hx
    rcases hx with hx | rfl | hx
    · obtain ⟨k, c', l', r', rfl⟩ := ihl hx
      exact ⟨k ++ [inL c n r], c', l', r', by rw [plug_append]; rfl⟩
    · exact ⟨[], c, l, r, rfl⟩
    · obtain ⟨k, c', l', r', rfl⟩ := ihr hx
      exact ⟨k ++ [inR c l n], c', l', r', by rw [plug_append]; rfl⟩

theorem kok_rename {k₂ : List (Frame N)} {c d : Color} {l : T N} {x y : Fin N} {n : Nat}
    (hk : KOK (k₂ ++ inR c l x :: k) n d) : KOK (k₂ ++ inR c l y :: k) n d := by
  induction k₂ generalizing n d with
  | nil => cases c <;> exact hk
  | cons f k₂ ih =>
    cases f with
    | inL e m r =>
      cases e with
      | black => exact ⟨hk.1, ih hk.2⟩
      | red => exact ⟨hk.1, hk.2.1, hk.2.2.1, ih hk.2.2.2⟩
    | inR e m r =>
      cases e with
      | black => exact ⟨hk.1, ih hk.2⟩
      | red => exact ⟨hk.1, hk.2.1, hk.2.2.1, ih hk.2.2.2⟩

theorem length_le_nodes (k : List (Frame N)) : k.length ≤ (kleft k).length + (kright k).length := by
  induction k with
  | nil => simp
  | cons f k ih => cases f <;> simp [kleft, kright] <;> omega

theorem St.length_le {t : T N} (s : St h₀ rt L h k t) : k.length ≤ N := by
  have h1 := nodup_length s.nodup
  rw [← s.order] at h1
  have := length_le_nodes k
  simp only [List.length_append] at h1
  omega

/-- What there is to know about the tree of a root pointer. -/
structure Tr (h : Heap N M) (rt : Fin M) (t : T N) : Prop where
  holds : Holds h rt t
  rb : ∃ m, RB t m
  black : t.color = .black

/-- Removing a red node that has at most one child, the tree is still red-black. -/
theorem rb_red_child {l r t : T N} {x : Fin N} {n : Nat} (hr : RB (node .red l x r) n)
    (ht : (l = leaf ∧ t = r) ∨ (r = leaf ∧ t = l)) : RB t n ∧ t.color = .black := by
  rcases ht with ⟨rfl, rfl⟩ | ⟨rfl, rfl⟩
  · exact ⟨hr.2.2.2, hr.2.1⟩
  · exact ⟨hr.2.2.1, hr.1⟩

theorem rb_black_child {l r t : T N} {x : Fin N} {n : Nat} (hr : RB (node .black l x r) n)
    (ht : (l = leaf ∧ t = r) ∨ (r = leaf ∧ t = l)) : ∃ m, n = m + 1 ∧ RB t m := by
  obtain ⟨m, e, h1, h2⟩ := hr
  rcases ht with ⟨rfl, rfl⟩ | ⟨rfl, rfl⟩
  · exact ⟨m, e, h2⟩
  · exact ⟨m, e, h1⟩

/-- The end of `diminuto_tree_remove`, from the rebalancing on. -/
theorem St.removeEnd {h₁ : Heap N M} {x : Fin N} {t : T N} {c : Color} {n : Nat}
    (s : St (h₀.setCell x (h₁.cell x)) rt L h₁ k t) (hx : x ∉ L)
    (hr : (c = .red ∧ RB t n ∧ KOK k n t.color) ∨ (c = .black ∧ RB t n ∧ KOK k (n + 1) .black)) :
    ∃ h' t', ((if c = .black then Tree.removeFixup (N + 2) h₁ t.ptr (kptr k) rt else some h₁).map fun h =>
      (init h x, some x)) = some (h', some x) ∧ St (h₀.setCell x orphan) rt L h' [] t' ∧
      (∃ m, RB t' m) ∧ t'.color = .black := by
  rcases hr with ⟨rfl, h1, h2⟩ | ⟨rfl, h1, h2⟩
  · obtain ⟨m, h3, h4⟩ := rb_plug h2 h1
    refine ⟨_, plug k t, rfl, ?_, ⟨m, h3⟩, h4⟩
    have := (st_plug.mp s).setCell_out hx orphan
    rw [setCell_setCell] at this
    exact this
  · have hf : k.length + 2 ≤ N + 2 := by have := s.length_le; omega
    obtain ⟨h', t', e1, e2, e3⟩ := s.removeFixup (N + 2) h1 h2 hf
    refine ⟨init h' x, t', ?_, ?_, e3⟩
    · rw [if_pos rfl, e1]; rfl
    · have := e2.setCell_out hx orphan
      rw [setCell_setCell] at this
      exact this

theorem remove_tr {t : T N} {x : Fin N} (ht : Tr h rt t) (hx : x ∈ t.inorder) :
    ∃ h' t', remove h x = some (h', some x) ∧ Tr h' rt t' ∧ t'.inorder = t.inorder.erase x ∧
      h'.cell x = orphan ∧ (∀ z, z ∉ t.inorder → h'.cell z = h.cell z) ∧
      (∀ r, r ≠ rt → h'.top r = h.top r) := by
  obtain ⟨k, c, l, r, rfl⟩ := exists_plug hx
  obtain ⟨hh, ⟨m, hrb⟩, hbl⟩ := ht
  have s : St h rt (plug k (node c l x r)).inorder h k (node c l x r) :=
    st_plug.mpr (st_of_holds hh)
  have hcell := s.cell
  have hnd := hh.2.2
  -- what is to be shown of the result
  have fin : ∀ (h₁ : Heap N M) (k' : List (Frame N)) (t' : T N) (d : Color) (n : Nat),
      kleft k' ++ t'.inorder ++ kright k' = (plug k (node c l x r)).inorder.erase x →
      St (h.setCell x (h₁.cell x)) rt (kleft k' ++ t'.inorder ++ kright k') h₁ k' t' →
      ((d = .red ∧ RB t' n ∧ KOK k' n t'.color) ∨ (d = .black ∧ RB t' n ∧ KOK k' (n + 1) .black)) →
      unlink h x rt = some (h₁, t'.ptr, kptr k', d) →
      ∃ h' t', remove h x = some (h', some x) ∧ Tr h' rt t' ∧
        t'.inorder = (plug k (node c l x r)).inorder.erase x ∧
        h'.cell x = orphan ∧ (∀ z, z ∉ (plug k (node c l x r)).inorder → h'.cell z = h.cell z) ∧
        (∀ r, r ≠ rt → h'.top r = h.top r) := by
    intro h₁ k' t' d n hL s' hr hu
    have hxL : x ∉ kleft k' ++ t'.inorder ++ kright k' := by
      rw [hL]; exact List.Nodup.not_mem_erase hnd
    obtain ⟨h', t2, e1, e2, e3, e4⟩ := s'.removeEnd hxL hr
    refine ⟨h', t2, ?_, ⟨e2.holds, e3, e4⟩, ?_, ?_, ?_, ?_⟩
    · unfold remove
      rw [hcell]
      simp only []
      rw [hu]
      exact e1
    · have := e2.order
      simp only [kleft, kright, List.nil_append, List.append_nil] at this
      rw [this, hL]
    · rw [e2.cells x hxL]; simp
    · intro z hz
      have hz' : z ∉ kleft k' ++ t'.inorder ++ kright k' := by
        rw [hL]; exact fun h => hz (List.mem_of_mem_erase h)
      rw [e2.cells z hz']
      have : z ≠ x := by rintro rfl; exact hz hx
      simp [this]
    · intro q hq
      rw [e2.tops q hq]; rfl
  obtain ⟨n, rbn, kok⟩ := rb_unplug hrb hbl
  have simple : ∀ t', ((l = leaf ∧ t' = r) ∨ (r = leaf ∧ t' = l)) →
      unlink h x rt = some (unlinkSimple h x t'.ptr rt) →
      ∃ h' t', remove h x = some (h', some x) ∧ Tr h' rt t' ∧
        t'.inorder = (plug k (node c l x r)).inorder.erase x ∧
        h'.cell x = orphan ∧ (∀ z, z ∉ (plug k (node c l x r)).inorder → h'.cell z = h.cell z) ∧
        (∀ r, r ≠ rt → h'.top r = h.top r) := by
    intro t' ht' hu
    obtain ⟨s1, _⟩ := s.unlinkSimple (err := x) ht' _ rfl
    have hL : kleft k ++ t'.inorder ++ kright k = (plug k (node c l x r)).inorder.erase x := by
      have hd := hnd
      rw [inorder_plug] at hd ⊢
      have hxk : x ∉ kleft k := by
        simp only [inorder, List.nodup_append, List.nodup_cons, List.mem_append, List.mem_cons] at hd
        grind
      have hxl : x ∉ l.inorder := by
        simp only [inorder, List.nodup_append, List.nodup_cons, List.mem_append, List.mem_cons] at hd
        grind
      simp only [inorder, List.append_assoc, List.cons_append]
      rw [List.erase_append_right _ hxk, List.erase_append_right _ hxl, List.erase_cons_head]
      rcases ht' with ⟨rfl, rfl⟩ | ⟨rfl, rfl⟩ <;> simp [inorder]
    cases c with
    | red =>
      obtain ⟨r1, r2⟩ := rb_red_child rbn ht'
      exact fin _ k t' .red n hL s1 (Or.inl ⟨rfl, r1, r2 ▸ kok.any⟩) (by rw [hu, unlinkSimple, hcell])
    | black =>
      obtain ⟨m', rfl, r1⟩ := rb_black_child rbn ht'
      exact fin _ k t' .black m' hL s1 (Or.inr ⟨rfl, r1, kok⟩) (by rw [hu, unlinkSimple, hcell])
  cases l with
  | leaf =>
    refine simple r (Or.inl ⟨rfl, rfl⟩) ?_
    unfold unlink; rw [hcell]; rfl
  | node lc ll lx lr =>
    cases r with
    | leaf =>
      refine simple (node lc ll lx lr) (Or.inr ⟨rfl, rfl⟩) ?_
      unfold unlink; rw [hcell]; rfl
    | node rc rl rx rr =>
      obtain ⟨h₁, k₂, c₂, y, r₂, e1, e2, e3, e4⟩ := s.unlinkSuccessor (by simp)
      have hp : plug k (node c (node lc ll lx lr) x (node rc rl rx rr)) =
          plug (k₂ ++ inR c (node lc ll lx lr) x :: k) (node c₂ leaf y r₂) := by
        rw [plug_append]; simp only [plug]; rw [← e1]
      have hL : kleft (k₂ ++ inR c (node lc ll lx lr) y :: k) ++ r₂.inorder ++
          kright (k₂ ++ inR c (node lc ll lx lr) y :: k) =
          (plug k (node c (node lc ll lx lr) x (node rc rl rx rr))).inorder.erase x := by
        have hd := hnd
        rw [hp] at hd ⊢
        rw [inorder_plug] at hd ⊢
        simp only [kleft_append, kright_append, kleft, kright, e2, List.append_nil, inorder,
          List.nil_append, List.append_assoc, List.cons_append] at hd ⊢
        have hxk : x ∉ kleft k := by
          simp only [List.nodup_append, List.nodup_cons, List.mem_append, List.mem_cons] at hd
          grind
        have hx1 : x ∉ ll.inorder := by
          simp only [List.nodup_append, List.nodup_cons, List.mem_append, List.mem_cons] at hd
          grind
        have hx2 : x ∉ lr.inorder := by
          simp only [List.nodup_append, List.nodup_cons, List.mem_append, List.mem_cons] at hd
          grind
        have hx3 : lx ≠ x := by
          simp only [List.nodup_append, List.nodup_cons, List.mem_append, List.mem_cons] at hd
          grind
        rw [List.erase_append_right _ hxk, List.erase_append_right _ hx1, List.erase_cons_tail (by simpa using hx3),
          List.erase_append_right _ hx2, List.erase_cons_head]
      have hu : unlink h x rt = some (h₁, r₂.ptr, kptr (k₂ ++ inR c (node lc ll lx lr) y :: k), c₂) := by
        unfold unlink; rw [hcell]; simp only [ptr]; exact e3
      rw [hp] at hrb hbl
      obtain ⟨n', rbn', kok'⟩ := rb_unplug hrb hbl
      cases c₂ with
      | red =>
        obtain ⟨r1, r2⟩ := rb_red_child (t := r₂) rbn' (Or.inl ⟨rfl, rfl⟩)
        exact fin h₁ _ r₂ .red n' hL e4 (Or.inl ⟨rfl, r1, r2 ▸ kok_rename kok'.any⟩) hu
      | black =>
        obtain ⟨m', rfl, r1⟩ := rb_black_child (t := r₂) rbn' (Or.inl ⟨rfl, rfl⟩)
        exact fin h₁ _ r₂ .black m' hL e4 (Or.inr ⟨rfl, r1, kok_rename kok'⟩) hu

end Diminuto.Tree
