import Verif.TreeOps2

/-!
# Lemmas about the Tree: replacement and insertion
-/

namespace Diminuto.Tree

open Frame T

variable {N M : Nat} {h₀ h : Heap N M} {rt : Fin M} {L : List (Fin N)} {k : List (Frame N)}

theorem replace_tr {t : T N} {x y : Fin N} (ht : Tr h rt t) (hx : x ∈ t.inorder) (hy : h.cell y = orphan) :
    ∃ h' t' A B, replace h x y = (h', some x) ∧ Tr h' rt t' ∧ t.inorder = A ++ x :: B ∧
      t'.inorder = A ++ y :: B ∧ h'.cell x = orphan ∧
      (∀ z, z ∉ t.inorder → z ≠ y → h'.cell z = h.cell z) ∧ (∀ r, r ≠ rt → h'.top r = h.top r) := by
  obtain ⟨k, c, l, r, rfl⟩ := exists_plug hx
  obtain ⟨hh, ⟨m, hrb⟩, hbl⟩ := ht
  have s : St h rt (plug k (node c l x r)).inorder h k (node c l x r) :=
    st_plug.mpr (st_of_holds hh)
  have hcell := s.cell
  have hrootT : ∀ z ∈ (plug k (node c l x r)).inorder, (h.cell z).root = some rt := by
    intro z hz
    obtain ⟨k', c', l', r', e⟩ := exists_plug hz
    have s' : St h rt (plug k' (node c' l' z r')).inorder h k' (node c' l' z r') :=
      st_plug.mpr (st_of_holds (e ▸ hh))
    rw [s'.cell]
  have hyT : y ∉ (plug k (node c l x r)).inorder := by
    intro hm
    have := hrootT y hm
    rw [hy] at this
    simp [orphan] at this
  have hxy : y ≠ x := by rintro rfl; exact hyT hx
  have hd : (kleft k ++ (node c l x r).inorder ++ kright k).Nodup := by rw [s.order]; exact s.nodup
  have hyo := hyT
  rw [inorder_plug] at hyo
  simp only [inorder, List.mem_append, List.mem_cons, not_or] at hyo
  obtain ⟨r1, r2, r3⟩ := relink_linkedK (new := some y) (err := x) (A := (node c l x r).inorder)
    (by simp [inorder]) hd s.around
  generalize hj : relink h (kptr k) rt x (some y) x = j at r1 r2 r3
  have hjx : j.cell x = h.cell x := r2 x (s.kptr_ne (by simp [inorder]))
  have hxl : x ∉ l.inorder ∧ x ∉ r.inorder := by
    simp only [inorder, List.nodup_append, List.nodup_cons, List.mem_append, List.mem_cons] at hd
    grind
  have hkL : ∀ z, z ∈ kleft k ∨ z ∈ kright k → z ∈ (plug k (node c l x r)).inorder := by
    intro z hz; rw [inorder_plug]; rcases hz with hz | hz <;> simp [hz]
  have hki : ∀ z, z ∈ kleft k ∨ z ∈ kright k → z ∉ (node c l x r).inorder := by
    intro z hz
    simp only [List.nodup_append, List.mem_append] at hd; grind
  -- the heap before the old node is initialised
  generalize hg : ((j.setParentOf l.ptr (some y)).setParentOf r.ptr (some y)) = g
  have hgx : g.cell x = h.cell x := by
    rw [← hg, setParentOf_cell hxl.2, setParentOf_cell hxl.1, hjx]
  have hgy : g.cell y = orphan := by
    rw [← hg, setParentOf_cell hyo.1.2.2.2, setParentOf_cell hyo.1.2.1,
      r2 y (fun hk => hyT (hkL y (kptr_mem hk))), hy]
  have hrep : replace h x y = (init (g.setCell y ⟨kptr k, l.ptr, r.ptr, some rt, c, false⟩) x, some x) := by
    unfold replace
    rw [hcell]
    simp only []
    rw [if_neg (by rw [hy]; simp [orphan]), hj, hjx, hcell]
    simp only []
    have e1 : ((j.setParentOf l.ptr (some y)).cell x).right = r.ptr := by
      rw [setParentOf_cell hxl.1, hjx, hcell]
    rw [e1, hg, copy_fields g hxy _ _ _ _ _ rfl rfl rfl rfl rfl, hgx, hcell, hgy]
    rfl
  have sub := s.subst (y := y) (h' := g.setCell y ⟨kptr k, l.ptr, r.ptr, some rt, c, false⟩) hyT
    (by
      refine linkedK_congr (h := j) (fun z hz => ?_) ?_ r1
      · have h1 := hki z hz
        simp only [inorder, List.mem_append, List.mem_cons, not_or] at h1
        have h2 : z ≠ y := by rintro rfl; exact hyT (hkL z hz)
        simp only [setCell_cell, h2, if_false]
        rw [← hg, setParentOf_cell h1.2.2, setParentOf_cell h1.1]
      · rw [← hg]; simp only [setCell_top]; rw [setParentOf_top, setParentOf_top])
    (by simp)
    (by
      intro z hz
      have h1 : kptr k ≠ some z := s.kptr_ne (by simp only [inorder, List.mem_append, List.mem_cons]; grind)
      have h2 : z ≠ y := by rintro rfl; grind
      simp only [setCell_cell, h2, if_false]
      rw [← hg, setParentOf_cell_eq, setParentOf_cell_eq, r2 z h1]
      by_cases h3 : l.ptr = some z <;> by_cases h4 : r.ptr = some z <;> simp [h3, h4])
    (by
      intro z hz hzy
      have h1 : kptr k ≠ some z := fun hk => hz (hkL z (kptr_mem hk))
      rw [inorder_plug] at hz
      simp only [inorder, List.mem_append, List.mem_cons, not_or] at hz
      simp only [setCell_cell, hzy, if_false]
      rw [← hg, setParentOf_cell hz.1.2.2.2, setParentOf_cell hz.1.2.1, r2 z h1])
    (by
      intro q hq
      rw [← hg]
      simp only [setCell_top]
      rw [setParentOf_top, setParentOf_top, r3 q hq])
  have hxL : x ∉ kleft k ++ (node c l y r).inorder ++ kright k := by
    simp only [inorder, List.nodup_append, List.nodup_cons, List.mem_append, List.mem_cons] at hd ⊢
    grind
  have s2 := (st_plug.mp sub).setCell_out hxL orphan
  rw [setCell_setCell] at s2
  refine ⟨_, plug k (node c l y r), kleft k ++ l.inorder, r.inorder ++ kright k, hrep, ⟨s2.holds, ?_, ?_⟩,
    ?_, ?_, ?_, ?_, ?_⟩
  · obtain ⟨n, rbn, kok⟩ := rb_unplug hrb hbl
    obtain ⟨m', h1, _⟩ := rb_plug (k := k) (t := node c l y r) (n := n) kok (by cases c <;> exact rbn)
    exact ⟨m', h1⟩
  · obtain ⟨n, rbn, kok⟩ := rb_unplug hrb hbl
    obtain ⟨m', _, h1⟩ := rb_plug (k := k) (t := node c l y r) (n := n) kok (by cases c <;> exact rbn)
    exact h1
  · rw [inorder_plug]; simp [inorder]
  · rw [inorder_plug]; simp [inorder]
  · simp [init, orphan]
  · intro z hz hzy
    have hzx : z ≠ x := by rintro rfl; exact hz hx
    have : z ∉ kleft k ++ (node c l y r).inorder ++ kright k := by
      rw [inorder_plug] at hz
      simp only [inorder, List.mem_append, List.mem_cons] at hz ⊢
      grind
    have hc := s2.cells z this
    simpa [init, hzx, hzy] using hc
  · intro q hq
    exact s2.tops q hq

/-- Linking an orphan as a child: the state before the rebalancing. -/
theorem linkNode_eq (h : Heap N M) {x : Fin N} (p : Option (Fin N)) (r : Option (Fin M)) :
    linkNode h x p r = h.setCell x ⟨p, none, none, r, .red, (h.cell x).error⟩ := by
  simp only [linkNode, Heap.setColor, Heap.setParent, Heap.setLeft, Heap.setRight, Heap.setRoot, Heap.setCell,
    Heap.mk.injEq, and_true, if_true]
  funext z
  split <;> rfl

theorem St.insertEnd {t : T N} {x : Fin N} {n : Nat} (s : St h₀ rt L h k (node .red leaf x leaf))
    (ht : RB t n) (hk : KOK k n .black) (hl : t = leaf) :
    ∃ h' t', ((Tree.insertFixup (N + 2) h x rt).map fun h => (h, some x)) = some (h', some x) ∧
      Tr h' rt t' ∧ t'.inorder = L ∧ (∀ z, z ∉ L → h'.cell z = h₀.cell z) ∧
      (∀ r, r ≠ rt → h'.top r = h₀.top r) := by
  subst hl
  have hn : n = 0 := ht
  subst hn
  obtain ⟨h', t', e1, e2, e3, e4⟩ := s.insertFixup (N + 2) (n := 0) rfl rfl rfl rfl hk
    (by have := s.length_le; omega)
  refine ⟨h', t', by rw [e1]; rfl, ⟨e2.holds, e3, e4⟩, ?_, e2.cells, e2.tops⟩
  have := e2.order
  simpa [kleft, kright] using this

theorem insertRoot_tr {x : Fin N} (ht : Tr h rt (leaf : T N)) (hx : h.cell x = orphan) :
    ∃ h' t', insertRoot h x rt = some (h', some x) ∧ Tr h' rt t' ∧ t'.inorder = [x] ∧
      (∀ z, z ≠ x → h'.cell z = h.cell z) ∧ (∀ r, r ≠ rt → h'.top r = h.top r) := by
  have h0 : h.top rt = none := ht.holds.1
  have s : St h rt [x] ((h.setCell x ⟨none, none, none, some rt, .red, false⟩).setTop rt (some x)) []
      (node .red leaf x leaf) := by
    refine ⟨?_, ⟨?_, trivial, trivial⟩, rfl, by simp, ?_, ?_⟩
    · simp [LinkedK, ptr]
    · simp [kptr, ptr]
    · intro z hz
      simp only [List.mem_singleton] at hz
      simp [hz]
    · intro r hr
      simp [hr]
  obtain ⟨h', t', e1, e2, e3, e4, e5⟩ := s.insertEnd (t := leaf) (n := 0) rfl rfl rfl
  refine ⟨h', t', ?_, e2, e3, fun z hz => e4 z (by simpa using hz), e5⟩
  rw [← e1]
  unfold insertRoot insertLeftOrRoot
  rw [if_neg (by rw [hx]; simp [orphan])]
  simp only [Option.bind_some]
  rw [if_neg (by rw [h0]; simp), linkNode_eq, hx]
  rfl

theorem insertLeft_tr {t : T N} {x p : Fin N} (ht : Tr h rt t) (hp : p ∈ t.inorder) (hl : (h.cell p).left = none)
    (hx : h.cell x = orphan) :
    ∃ h' t' A B, insertLeft h x p = some (h', some x) ∧ Tr h' rt t' ∧ t.inorder = A ++ p :: B ∧
      t'.inorder = A ++ x :: p :: B ∧ (∀ z, z ∉ t'.inorder → h'.cell z = h.cell z) ∧
      (∀ r, r ≠ rt → h'.top r = h.top r) := by
  obtain ⟨k, c, l, r, rfl⟩ := exists_plug hp
  obtain ⟨hh, ⟨m, hrb⟩, hbl⟩ := ht
  have s0 : St h rt (plug k (node c l p r)).inorder h k (node c l p r) :=
    st_plug.mpr (st_of_holds hh)
  have hcell := s0.cell
  have hlf : l = leaf := by
    cases l with
    | leaf => rfl
    | node a b d e => rw [hcell] at hl; simp [ptr] at hl
  subst hlf
  have hxT : x ∉ (plug k (node c leaf p r)).inorder := by
    intro hm
    obtain ⟨k', c', l', r', e⟩ := exists_plug hm
    have s' : St h rt (plug k' (node c' l' x r')).inorder h k' (node c' l' x r') :=
      st_plug.mpr (st_of_holds (e ▸ hh))
    have := s'.cell
    rw [hx] at this
    simp [orphan] at this
  have hd := s0.nodup
  rw [← s0.order] at hd hxT
  simp only [inorder, List.nil_append, List.mem_append, List.mem_cons, not_or] at hxT
  obtain ⟨n, rbn, kok⟩ := rb_unplug hrb hbl
  have hk : ∃ q, KOK (inL c p r :: k) q .black ∧ RB (leaf : T N) q := by
    cases c with
    | black =>
      obtain ⟨q, rfl, h1, h2⟩ := rbn
      exact ⟨q, ⟨h2, kok⟩, h1⟩
    | red => exact ⟨n, ⟨rfl, rbn.2.1, rbn.2.2.2, kok⟩, rbn.2.2.1⟩
  obtain ⟨q, kok', rbl⟩ := hk
  obtain ⟨a, ⟨b1, b2, b3⟩, o, d, e, f⟩ := s0
  have hfr : p ∉ r.inorder ∧ ∀ z, z ∈ kleft k ∨ z ∈ kright k → z ≠ p := by
    simp only [inorder, List.nodup_append, List.nodup_cons, List.mem_append, List.mem_cons] at hd
    grind
  have s : St h rt (kleft k ++ x :: p :: r.inorder ++ kright k)
      ((h.setCell x ⟨some p, none, none, some rt, .red, false⟩).setLeft p (some x)) (inL c p r :: k)
      (node .red leaf x leaf) := by
    have hc : ∀ z, z ≠ x → z ≠ p →
        ((h.setCell x ⟨some p, none, none, some rt, .red, false⟩).setLeft p (some x)).cell z = h.cell z := by
      intro z h1 h2; simp [Heap.setLeft, h1, h2]
    have hpx : p ≠ x := fun h => hxT.1.2.1 h.symm
    refine ⟨⟨?_, ?_, ?_⟩, ⟨?_, trivial, trivial⟩, ?_, ?_, ?_, ?_⟩
    · simp only [Heap.setLeft, setCell_cell, hpx, if_true, if_false]
      rw [hcell]
      rfl
    · refine linked_congr (fun z hz => hc z ?_ ?_) b3
      · rintro rfl; exact hxT.1.2.2 hz
      · rintro rfl; exact hfr.1 hz
    · refine linkedK_congr (h := h) (fun z hz => hc z ?_ (hfr.2 z hz)) rfl a
      rintro rfl
      rcases hz with hz | hz
      · exact hxT.1.1 hz
      · exact hxT.2 hz
    · simp [Heap.setLeft, hpx.symm, kptr, ptr]
    · simp [kleft, kright, inorder]
    · simp only [inorder, List.nodup_append, List.nodup_cons, List.mem_append, List.mem_cons] at hd ⊢
      grind
    · intro z hz
      simp only [List.mem_append, List.mem_cons, not_or] at hz
      exact hc z hz.1.2.1 hz.1.2.2.1
    · intro r hr; rfl
  obtain ⟨h', t', e1, e2, e3, e4, e5⟩ := s.insertEnd rbl kok' rfl
  refine ⟨h', t', kleft k, r.inorder ++ kright k, ?_, e2, ?_, ?_, fun z hz => e4 z (by rw [← e3]; exact hz), e5⟩
  · rw [← e1]
    unfold insertLeft insertLeftOrRoot
    rw [if_neg (by rw [hx]; simp [orphan])]
    simp only []
    rw [if_neg (by rw [hl]; simp), linkNode_eq, hx, hcell]
    simp only [orphan]
    have hpx : x ≠ p := fun h => hxT.1.2.1 h
    have : (((h.setCell x ⟨some p, none, none, some rt, .red, false⟩).setLeft p (some x)).cell x).root = some rt := by
      simp [Heap.setLeft, hpx]
    rw [this]
    rfl
  · rw [inorder_plug]; simp [inorder]
  · rw [e3]; simp

theorem insertRight_tr {t : T N} {x p : Fin N} (ht : Tr h rt t) (hp : p ∈ t.inorder) (hl : (h.cell p).right = none)
    (hx : h.cell x = orphan) :
    ∃ h' t' A B, insertRight h x p = some (h', some x) ∧ Tr h' rt t' ∧ t.inorder = A ++ p :: B ∧
      t'.inorder = A ++ p :: x :: B ∧ (∀ z, z ∉ t'.inorder → h'.cell z = h.cell z) ∧
      (∀ r, r ≠ rt → h'.top r = h.top r) := by
  obtain ⟨k, c, l, r, rfl⟩ := exists_plug hp
  obtain ⟨hh, ⟨m, hrb⟩, hbl⟩ := ht
  have s0 : St h rt (plug k (node c l p r)).inorder h k (node c l p r) :=
    st_plug.mpr (st_of_holds hh)
  have hcell := s0.cell
  have hlf : r = leaf := by
    cases r with
    | leaf => rfl
    | node a b d e => rw [hcell] at hl; simp [ptr] at hl
  subst hlf
  have hxT : x ∉ (plug k (node c l p leaf)).inorder := by
    intro hm
    obtain ⟨k', c', l', r', e⟩ := exists_plug hm
    have s' : St h rt (plug k' (node c' l' x r')).inorder h k' (node c' l' x r') :=
      st_plug.mpr (st_of_holds (e ▸ hh))
    have := s'.cell
    rw [hx] at this
    simp [orphan] at this
  have hd := s0.nodup
  rw [← s0.order] at hd hxT
  simp only [inorder, List.mem_append, List.mem_cons, List.not_mem_nil, or_false, not_or] at hxT
  obtain ⟨n, rbn, kok⟩ := rb_unplug hrb hbl
  have hk : ∃ q, KOK (inR c l p :: k) q .black ∧ RB (leaf : T N) q := by
    cases c with
    | black =>
      obtain ⟨q, rfl, h1, h2⟩ := rbn
      exact ⟨q, ⟨h1, kok⟩, h2⟩
    | red => exact ⟨n, ⟨rfl, rbn.1, rbn.2.2.1, kok⟩, rbn.2.2.2⟩
  obtain ⟨q, kok', rbl⟩ := hk
  obtain ⟨a, ⟨b1, b2, b3⟩, o, d, e, f⟩ := s0
  have hfr : p ∉ l.inorder ∧ ∀ z, z ∈ kleft k ∨ z ∈ kright k → z ≠ p := by
    simp only [inorder, List.nodup_append, List.nodup_cons, List.mem_append, List.mem_cons] at hd
    grind
  have s : St h rt (kleft k ++ (l.inorder ++ [p, x]) ++ kright k)
      ((h.setCell x ⟨some p, none, none, some rt, .red, false⟩).setRight p (some x)) (inR c l p :: k)
      (node .red leaf x leaf) := by
    have hc : ∀ z, z ≠ x → z ≠ p →
        ((h.setCell x ⟨some p, none, none, some rt, .red, false⟩).setRight p (some x)).cell z = h.cell z := by
      intro z h1 h2; simp [Heap.setRight, h1, h2]
    have hpx : p ≠ x := fun h => hxT.1.2.2 h.symm
    refine ⟨⟨?_, ?_, ?_⟩, ⟨?_, trivial, trivial⟩, ?_, ?_, ?_, ?_⟩
    · simp only [Heap.setRight, setCell_cell, hpx, if_true, if_false]
      rw [hcell]
      rfl
    · refine linked_congr (fun z hz => hc z ?_ ?_) b2
      · rintro rfl; exact hxT.1.2.1 hz
      · rintro rfl; exact hfr.1 hz
    · refine linkedK_congr (h := h) (fun z hz => hc z ?_ (hfr.2 z hz)) rfl a
      rintro rfl
      rcases hz with hz | hz
      · exact hxT.1.1 hz
      · exact hxT.2 hz
    · simp [Heap.setRight, hpx.symm, kptr, ptr]
    · simp [kleft, kright, inorder]
    · simp only [inorder, List.nodup_append, List.nodup_cons, List.mem_append, List.mem_cons,
        List.not_mem_nil, or_false] at hd ⊢
      grind
    · intro z hz
      simp only [List.mem_append, List.mem_cons, List.not_mem_nil, or_false, not_or] at hz
      exact hc z hz.1.2.2.2 hz.1.2.2.1
    · intro r hr; rfl
  obtain ⟨h', t', e1, e2, e3, e4, e5⟩ := s.insertEnd rbl kok' rfl
  refine ⟨h', t', kleft k ++ l.inorder, kright k, ?_, e2, ?_, ?_, fun z hz => e4 z (by rw [← e3]; exact hz), e5⟩
  · rw [← e1]
    unfold insertRight insertRightOrRoot
    rw [if_neg (by rw [hx]; simp [orphan])]
    simp only []
    rw [if_neg (by rw [hl]; simp), linkNode_eq, hx, hcell]
    simp only [orphan]
    have hpx : x ≠ p := fun h => hxT.1.2.2 h
    have : (((h.setCell x ⟨some p, none, none, some rt, .red, false⟩).setRight p (some x)).cell x).root = some rt := by
      simp [Heap.setRight, hpx]
    rw [this]
    rfl
  · rw [inorder_plug]; simp [inorder]
  · rw [e3]; simp

end Diminuto.Tree
