import Verif.WellSpec

/-!
# Lemmas: the Well
-/

namespace Diminuto.Well

open Diminuto.DList

variable {N : Nat}

theorem not_empty_of {h : Heap N} {A : Rings N} (hR : Rep h A) {r : Node N} {l : List (Node N)} (hl : r :: l ∈ A) :
    (isEmpty h r = true ↔ l = []) ∧ h.next r = (l.head?).getD r ∧
      h.prev r = (r :: l).getLast (by simp) ∧ h.root r = r := by
  obtain ⟨h1, h2, h3⟩ := rep_head_tail hR r
  have hrl : ringOf A r = r :: l := ringOf_eq hR hl (by simp)
  have hroot : h.root r = r := by
    rw [rep_root hR r]
    unfold specRoot
    rw [hrl]
    rfl
  rw [hroot, hrl] at h3
  unfold head specHead at h1
  rw [hroot, hrl] at h1
  refine ⟨?_, ?_, ?_, hroot⟩
  · cases l with
    | nil =>
      simp only [iff_true]
      by_contra hc
      rw [if_neg hc] at h1
      simp at h1
    | cons x l =>
      constructor
      · intro he
        rw [if_pos he] at h1
        simp at h1
      · simp
  · cases l with
    | nil =>
      by_cases he : isEmpty h r = true
      · unfold isEmpty at he
        simp at he
        simpa using he.symm
      · rw [if_neg he] at h1
        simp at h1
    | cons x l =>
      by_cases he : isEmpty h r = true
      · rw [if_pos he] at h1
        simp at h1
      · rw [if_neg he] at h1
        simpa using h1
  · rw [h3]
    simp [List.getLastD_eq_getLast?, List.getLast?_eq_some_getLast]

theorem specInsert_other {h : Heap N} {A : Rings N} (hR : Rep h A) (p n : Node N) {l : List (Node N)}
    (hl : l ∈ A) (hp : p ∉ l) (hn : n ∉ l) : l ∈ specInsert A p n := by
  obtain ⟨h1, _, hR1⟩ := remove_rep h A n hR
  have hl' := ringOf_specRemove hR n hl hn
  unfold specInsert
  simp only []
  by_cases hpn : p = n
  · rw [if_pos hpn]; exact hl'
  · rw [if_neg hpn]
    have e1 : l ≠ ringOf (specRemove A n) p := by
      rintro he
      exact hp (he ▸ (ringOf_spec hR1 p).2)
    have e2 : l ≠ [n] := by
      rintro rfl
      exact hn (by simp)
    exact List.mem_cons_of_mem _ ((List.mem_erase_of_ne e2).2 ((List.mem_erase_of_ne e1).2 hl'))

theorem specRemove_head {h : Heap N} {A : Rings N} (hR : Rep h A) {r x : Node N} {l : List (Node N)}
    (hl : r :: x :: l ∈ A) : r :: l ∈ specRemove A x ∧ [x] ∈ specRemove A x := by
  have hring := hR.1 _ hl
  have hrn : r ≠ x := by
    rintro rfl
    have := hring.1
    simp at this
  have hrn' : ringOf A x = r :: x :: l := ringOf_eq hR hl (by simp)
  unfold specRemove
  rw [hrn']
  simp [hrn]

/-- Initialising a node that is alone changes nothing. -/
theorem init_single {h : Heap N} {A : Rings N} (hR : Rep h A) {x : Node N} (hx : [x] ∈ A) :
    DList.init h x = h := by
  have hr := hR.1 _ hx
  obtain ⟨-, ⟨e1, e2⟩, e3⟩ := hr
  have e3 := e3 x (by simp)
  cases h with
  | mk nx pv rt =>
    simp only at e1 e2 e3
    unfold DList.init Heap.setRoot Heap.setPrev Heap.setNext upd
    congr 1 <;> (funext y; by_cases hy : y = x <;> simp [hy, e1, e2, e3])

/-- The relation between the well and its specification: the nodes of the free list. -/
def Inv (w : Control M) (fs us : List (Node (M + 2))) : Prop :=
  ∃ A, Rep w.heap A ∧ FREE :: fs ∈ A ∧ USED :: us ∈ A

def viewOf (w : Control M) (fs us : List (Node (M + 2))) : View := ⟨fs.map w.data, us.length⟩

theorem free_ne_used : (FREE : Node (M + 2)) ≠ USED := by
  intro h
  have := congrArg Fin.val h
  simp [FREE, USED] at this

theorem disjoint_lists {h : Heap N} {A : Rings N} (hR : Rep h A) {l k : List (Node N)} (hl : l ∈ A)
    (hk : k ∈ A) (hne : l ≠ k) {x : Node N} (hx : x ∈ l) : x ∉ k :=
  fun hk' => hne (rep_unique hR hl hk hx hk')

theorem alloc_spec (w : Control M) (fs us : List (Node (M + 2))) (hi : Inv w fs us) :
    (fs = [] → alloc w FREE = some (w, none)) ∧
    (∀ x fs', fs = x :: fs' → ∃ w', alloc w FREE = some (w', some (w.data x)) ∧ w'.data = w.data ∧
      Inv w' fs' (us ++ [x])) := by
  obtain ⟨A, hR, hf, hu⟩ := hi
  obtain ⟨f1, f2, f3, f4⟩ := not_empty_of hR hf
  constructor
  · intro he
    unfold alloc
    simp only [f4]
    rw [if_neg (by simp), if_neg (by simp [f1.2 he])]
  · rintro x fs' rfl
    unfold alloc
    simp only [f4]
    rw [if_neg (by simp), if_pos (by simp [f1])]
    have hx : w.heap.next FREE = x := by rw [f2]; rfl
    rw [hx]
    obtain ⟨h1, e1, hR1⟩ := remove_rep w.heap A x hR
    unfold removeAt
    rw [e1, Option.map_some, Option.bind_some]
    obtain ⟨m1, m2⟩ := specRemove_head hR hf
    have hne : FREE :: x :: fs' ≠ USED :: us := by
      intro h
      simp only [List.cons.injEq] at h
      exact free_ne_used h.1
    have hxu : x ∉ USED :: us := disjoint_lists hR hf hu hne (by simp)
    have m3 := ringOf_specRemove hR x hu hxu
    obtain ⟨g1, g2, g3, g4⟩ := not_empty_of hR1 m3
    simp only []
    unfold insertAt
    rw [g3]
    obtain ⟨h2, e2, hR2⟩ := insert_rep h1 _ ((USED :: us).getLast (by simp)) x hR1
    rw [e2, Option.map_some, Option.bind_some]
    refine ⟨_, rfl, rfl, _, hR2, ?_, ?_⟩
    · apply specInsert_other hR1 _ _ m1
      · apply disjoint_lists hR1 m3 m1
        · intro h
          simp only [List.cons.injEq] at h
          exact free_ne_used h.1.symm
        · exact List.getLast_mem _
      · apply disjoint_lists hR1 m2 m1
        · intro h
          have hm1 := (hR1.1 _ m1).1
          have : FREE ∈ [x] := by rw [h]; simp
          simp only [List.mem_singleton] at this
          have hnd := (hR.1 _ hf).1
          rw [this] at hnd
          simp at hnd
        · simp
    · have := mem_specInsert hR1 ((USED :: us).getLast (by simp)) x m3 (List.getLast_mem _) hxu
      rwa [insertAfter_last USED x us (hR1.1 _ m3).1] at this

theorem free_spec (w : Control M) (fs us : List (Node (M + 2))) (p : Nat) (hi : Inv w fs us) :
    (us = [] → free w FREE p = some (w, false)) ∧
    (∀ x us', us = x :: us' → ∃ w', free w FREE p = some (w', true) ∧
      w'.data = (fun y => if y = x then p else w.data y) ∧ x ∉ fs ∧ Inv w' (fs ++ [x]) us') := by
  obtain ⟨A, hR, hf, hu⟩ := hi
  obtain ⟨-, -, -, f4⟩ := not_empty_of hR hf
  obtain ⟨f1, f2, f3, -⟩ := not_empty_of hR hu
  constructor
  · intro he
    unfold free
    simp only [f4]
    rw [if_neg (by simp), if_neg (by simp [f1.2 he])]
  · rintro x us' rfl
    unfold free
    simp only [f4]
    rw [if_neg (by simp), if_pos (by simp [f1])]
    have hx : w.heap.next USED = x := by rw [f2]; rfl
    rw [hx]
    obtain ⟨h1, e1, hR1⟩ := remove_rep w.heap A x hR
    unfold removeAt
    rw [e1, Option.map_some, Option.bind_some]
    obtain ⟨m1, m2⟩ := specRemove_head hR hu
    have hne : USED :: x :: us' ≠ FREE :: fs := by
      intro h
      simp only [List.cons.injEq] at h
      exact free_ne_used h.1.symm
    have hxf : x ∉ FREE :: fs := disjoint_lists hR hu hf hne (by simp)
    have m3 := ringOf_specRemove hR x hf hxf
    obtain ⟨g1, g2, g3, g4⟩ := not_empty_of hR1 m3
    unfold datainit insertAt
    simp only []
    rw [init_single hR1 m2, g3]
    obtain ⟨h2, e2, hR2⟩ := insert_rep h1 _ ((FREE :: fs).getLast (by simp)) x hR1
    rw [e2, Option.map_some, Option.bind_some]
    refine ⟨_, rfl, rfl, fun h => hxf (List.mem_cons_of_mem _ h), _, hR2, ?_, ?_⟩
    · have := mem_specInsert hR1 ((FREE :: fs).getLast (by simp)) x m3 (List.getLast_mem _) hxf
      rwa [insertAfter_last FREE x fs (hR1.1 _ m3).1] at this
    · apply specInsert_other hR1 _ _ m1
      · apply disjoint_lists hR1 m3 m1
        · intro h
          simp only [List.cons.injEq] at h
          exact free_ne_used h.1
        · exact List.getLast_mem _
      · apply disjoint_lists hR1 m2 m1
        · intro h
          have : USED ∈ [x] := by rw [h]; simp
          simp only [List.mem_singleton] at this
          have hnd := (hR.1 _ hu).1
          rw [this] at hnd
          simp at hnd
        · simp

theorem step_refines (w : Control M) (fs us : List (Node (M + 2))) (hi : Inv w fs us) (o : Op) :
    ∃ w' fs' us', step w o = some (w', ((viewOf w fs us).step o).2) ∧ Inv w' fs' us' ∧
      viewOf w' fs' us' = ((viewOf w fs us).step o).1 := by
  cases o with
  | alloc =>
    obtain ⟨a1, a2⟩ := alloc_spec w fs us hi
    cases fs with
    | nil => exact ⟨w, [], us, by simp only [step, a1 rfl, Option.map_some]; rfl, hi, rfl⟩
    | cons x fs =>
      obtain ⟨w', e1, e2, e3⟩ := a2 x fs rfl
      refine ⟨w', fs, us ++ [x], by simp only [step, e1, Option.map_some]; rfl, e3, ?_⟩
      simp [viewOf, View.step, e2]
  | free p =>
    obtain ⟨a1, a2⟩ := free_spec w fs us p hi
    cases us with
    | nil => exact ⟨w, fs, [], by simp only [step, a1 rfl, Option.map_some]; rfl, hi, rfl⟩
    | cons x us =>
      obtain ⟨w', e1, e2, e4, e3⟩ := a2 x us rfl
      refine ⟨w', fs ++ [x], us, by simp only [step, e1, Option.map_some]; rfl, e3, ?_⟩
      have : fs.map w'.data = fs.map w.data := by
        apply List.map_congr_left
        intro y hy
        rw [e2]
        simp only []
        rw [if_neg]
        rintro rfl
        exact e4 hy
      have hx : w'.data x = p := by
        rw [e2]
        simp
      simp [viewOf, View.step, this, hx]

theorem run_refines (os : List Op) : ∀ (w : Control M) (fs us : List (Node (M + 2))), Inv w fs us →
    ∃ w' fs' us', run w os = some (w', ((viewOf w fs us).run os).2) ∧ Inv w' fs' us' ∧
      viewOf w' fs' us' = ((viewOf w fs us).run os).1 := by
  induction os with
  | nil => exact fun w fs us hi => ⟨w, fs, us, rfl, hi, rfl⟩
  | cons o os ih =>
    intro w fs us hi
    obtain ⟨w1, fs1, us1, e1, i1, v1⟩ := step_refines w fs us hi o
    obtain ⟨w2, fs2, us2, e2, i2, v2⟩ := ih w1 fs1 us1 i1
    refine ⟨w2, fs2, us2, ?_, i2, ?_⟩
    · simp only [run, e1, Option.bind_some, e2, Option.map_some, View.run, v1]
    · rw [v2, v1]
      rfl

theorem initLoop_spec (size : Nat) (ns : List (Node (M + 2))) :
    ∀ (data : Nat) (w : Control M) (A : Rings (M + 2)) (fs : List (Node (M + 2))), ns.Nodup →
      Rep w.heap A → FREE :: fs ∈ A → [USED] ∈ A → (∀ n ∈ ns, [n] ∈ A) → FREE ∉ ns → USED ∉ ns →
      ∃ w', initLoop size ns data w = some w' ∧ Inv w' (fs ++ ns) [] ∧
        (fs ++ ns).map w'.data = fs.map w.data ++ (List.range ns.length).map fun i => data + i * size := by
  induction ns with
  | nil =>
    intro data w A fs _ hR hf hu _ _ _
    exact ⟨w, rfl, ⟨A, hR, by simpa using hf, hu⟩, by simp⟩
  | cons n ns ih =>
    intro data w A fs hnd hR hf hu hall hfn hun
    have hn := hall n (by simp)
    have hnf : n ∉ FREE :: fs := by
      apply disjoint_lists hR hn hf
      · intro h
        simp only [List.cons.injEq] at h
        exact hfn (by simp [h.1])
      · simp
    obtain ⟨g1, g2, g3, g4⟩ := not_empty_of hR hf
    unfold initLoop
    simp only []
    unfold datainit insertAt
    simp only []
    rw [init_single hR hn, g3]
    obtain ⟨h2, e2, hR2⟩ := insert_rep w.heap _ ((FREE :: fs).getLast (by simp)) n hR
    rw [e2, Option.map_some, Option.bind_some]
    have m1 : FREE :: (fs ++ [n]) ∈ specInsert A ((FREE :: fs).getLast (by simp)) n := by
      have := mem_specInsert hR ((FREE :: fs).getLast (by simp)) n hf (List.getLast_mem _) hnf
      rwa [insertAfter_last FREE n fs (hR.1 _ hf).1] at this
    have hsingle : ∀ m : Node (M + 2), [m] ∈ A → m ≠ n → m ≠ FREE →
        [m] ∈ specInsert A ((FREE :: fs).getLast (by simp)) n := by
      intro m hm hmn hmf
      apply specInsert_other hR _ _ hm
      · apply disjoint_lists hR hf hm
        · intro h
          simp only [List.cons.injEq] at h
          exact hmf h.1.symm
        · exact List.getLast_mem _
      · simpa using fun h => hmn h.symm
    have hnd' := List.nodup_cons.1 hnd
    obtain ⟨w', i1, i2, i3⟩ := ih (data + size)
      { heap := h2, data := fun x => if x = n then data else w.data x } _ (fs ++ [n]) hnd'.2 hR2 m1
      (hsingle USED hu (fun h => hun (by simp [h])) (fun h => free_ne_used h.symm))
      (fun m hm => hsingle m (hall m (by simp [hm])) (fun h => hnd'.1 (h ▸ hm))
        (fun h => hfn (by simp [← h, hm])))
      (fun h => hfn (by simp [h])) (fun h => hun (by simp [h]))
    refine ⟨w', i1, ?_, ?_⟩
    · simpa using i2
    · have hfs : fs.map (fun x => if x = n then data else w.data x) = fs.map w.data := by
        apply List.map_congr_left
        intro y hy
        rw [if_neg]
        rintro rfl
        exact hnf (List.mem_cons_of_mem _ hy)
      have e : fs ++ n :: ns = fs ++ [n] ++ ns := by simp
      rw [e, i3, List.map_append, hfs, List.length_cons, List.range_succ_eq_map]
      simp only [List.map_map, List.map_cons, List.map_nil, if_true, List.append_assoc, List.singleton_append,
        Nat.zero_mul, Nat.add_zero]
      congr 2
      apply List.map_congr_left
      intro i _
      simp only [Function.comp]
      rw [Nat.succ_mul]
      omega

theorem init_inv (M control data size : Nat) :
    ∃ w fs, init M control data size = some w ∧ Inv w fs [] ∧ viewOf w fs [] = ⟨objects M data size, 0⟩ := by
  unfold init
  simp only []
  have hR := fresh_rep (M + 2)
  have hs : ∀ n : Node (M + 2), [n] ∈ specFresh (M + 2) := by
    intro n
    unfold specFresh
    simp
  have e : ∀ (w : Control M) n p, w.heap = fresh (M + 2) → (datainit w n p).heap = fresh (M + 2) := by
    intro w n p hw
    unfold datainit
    simp only [hw]
    exact init_single hR (hs n)
  obtain ⟨w, h1, h2, h3⟩ := initLoop_spec size ((List.finRange M).map fun i => (⟨i.val + 2, by omega⟩ : Node (M + 2)))
    data (datainit (datainit ⟨fresh (M + 2), fun _ => 0⟩ FREE control) USED data) (specFresh (M + 2)) []
    (by
      apply List.Nodup.map _ (List.nodup_finRange M)
      intro a b h
      simp only [Fin.mk.injEq] at h
      exact Fin.ext (by omega))
    (by rw [e _ _ _ (e _ _ _ rfl)]; exact hR) (hs _) (hs _) (fun n _ => hs n)
    (by
      intro h
      rw [List.mem_map] at h
      obtain ⟨i, -, h⟩ := h
      have := congrArg Fin.val h
      simp [FREE] at this)
    (by
      intro h
      rw [List.mem_map] at h
      obtain ⟨i, -, h⟩ := h
      have := congrArg Fin.val h
      simp [USED] at this)
  refine ⟨w, _, h1, h2, ?_⟩
  simp only [List.nil_append, List.map_nil] at h3
  unfold viewOf objects
  rw [List.nil_append, h3]
  simp

theorem held_perm (os : List Op) : ∀ (v : View) (h h' : List Nat), held v h os = some h' →
    v.used = h.length → (v.run os).1.used = h'.length ∧ ((v.run os).1.queue ++ h').Perm (v.queue ++ h) ∧
      ∀ r ∈ (v.run os).2, r ≠ .ok false := by
  induction os with
  | nil =>
    intro v h h' he hu
    simp only [held, Option.some.injEq] at he
    subst he
    exact ⟨hu, List.Perm.refl _, by simp [View.run]⟩
  | cons o os ih =>
    intro v h h' he hu
    cases o with
    | alloc =>
      obtain ⟨q, u⟩ := v
      cases q with
      | nil =>
        simp only [held, View.step] at he
        obtain ⟨a, b, c⟩ := ih _ _ _ he hu
        exact ⟨a, b, by simpa [View.run, View.step] using c⟩
      | cons p q =>
        simp only [held, View.step] at he
        obtain ⟨a, b, c⟩ := ih _ _ _ he (by simpa using hu)
        refine ⟨a, b.trans ?_, by simpa [View.run, View.step] using c⟩
        simp only [List.cons_append]
        exact List.perm_middle
    | free p =>
      simp only [held] at he
      by_cases hp : p ∈ h
      · rw [if_pos hp] at he
        have hpos : 0 < h.length := List.length_pos_of_mem hp
        have hu0 : v.used ≠ 0 := by omega
        have hs : v.step (.free p) = (⟨v.queue ++ [p], v.used - 1⟩, .ok true) := by
          simp only [View.step]
          rw [if_neg hu0]
        rw [hs] at he
        obtain ⟨a, b, c⟩ := ih _ _ _ he (by simp [List.length_erase_of_mem hp, hu])
        simp only [View.run, hs]
        refine ⟨a, b.trans ?_, by simpa using c⟩
        simp only [List.append_assoc, List.singleton_append]
        exact List.Perm.append_left _ (List.perm_cons_erase hp).symm
      · rw [if_neg hp] at he
        simp at he

end Diminuto.Well
