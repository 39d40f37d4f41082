import Verif.TreeWalk
import Mathlib.Logic.Function.Basic

/-!
# Lemmas about the Tree: all the trees together
-/

namespace Diminuto.Tree

open Frame T

variable {N M : Nat} {h h' : Heap N M} {rt : Fin M}

/-- The trees of all the root pointers. -/
structure Rep (h : Heap N M) (ts : Fin M → T N) : Prop where
  tr : ∀ rt, Tr h rt (ts rt)
  orphans : ∀ x, (h.cell x).root = none → h.cell x = orphan
  owned : ∀ x rt, (h.cell x).root = some rt → x ∈ (ts rt).inorder

variable {ts : Fin M → T N}

theorem Rep.mem_iff (R : Rep h ts) {x : Fin N} {rt : Fin M} :
    x ∈ (ts rt).inorder ↔ (h.cell x).root = some rt :=
  ⟨holds_root (R.tr rt).holds, R.owned x rt⟩

theorem Rep.fresh : Rep (fresh N M) (fun _ => leaf) :=
  ⟨fun _ => ⟨⟨rfl, trivial, List.nodup_nil⟩, ⟨0, rfl⟩, rfl⟩, fun _ _ => rfl, fun _ _ h => by simp [Tree.fresh] at h⟩

theorem Rep.update (R : Rep h ts) {t' : T N} (ht : Tr h' rt t')
    (hn : ∀ z ∈ t'.inorder, z ∈ (ts rt).inorder ∨ h.cell z = orphan)
    (hg : ∀ z ∈ (ts rt).inorder, z ∉ t'.inorder → h'.cell z = orphan)
    (hf : ∀ z, z ∉ (ts rt).inorder → z ∉ t'.inorder → h'.cell z = h.cell z)
    (htop : ∀ r, r ≠ rt → h'.top r = h.top r) : Rep h' (Function.update ts rt t') := by
  have key : ∀ r, r ≠ rt → ∀ z ∈ (ts r).inorder, h'.cell z = h.cell z := by
    intro r hr z hz
    have hz' := R.mem_iff.mp hz
    have h1 : z ∉ (ts rt).inorder := by
      intro hm
      have := R.mem_iff.mp hm
      rw [hz'] at this
      exact hr (Option.some.inj this)
    refine hf z h1 fun hm => ?_
    rcases hn z hm with h2 | h2
    · exact h1 h2
    · rw [h2] at hz'; simp [orphan] at hz'
  have out : ∀ z, z ∉ t'.inorder → h'.cell z = orphan ∨ (z ∉ (ts rt).inorder ∧ h'.cell z = h.cell z) := by
    intro z hz
    by_cases h1 : z ∈ (ts rt).inorder
    · exact Or.inl (hg z h1 hz)
    · exact Or.inr ⟨h1, hf z h1 hz⟩
  refine ⟨fun r => ?_, fun x hx => ?_, fun x r hx => ?_⟩
  · by_cases hr : r = rt
    · subst hr; simpa using ht
    · rw [Function.update_of_ne hr]
      obtain ⟨⟨h1, h2, h3⟩, h4, h5⟩ := R.tr r
      exact ⟨⟨by rw [htop r hr, h1], linked_congr (key r hr) h2, h3⟩, h4, h5⟩
  · by_cases h1 : x ∈ t'.inorder
    · rw [holds_root ht.holds h1] at hx; simp at hx
    · rcases out x h1 with h2 | ⟨_, h2⟩
      · exact h2
      · rw [h2] at hx ⊢; exact R.orphans x hx
  · by_cases h1 : x ∈ t'.inorder
    · rw [holds_root ht.holds h1] at hx
      have := Option.some.inj hx
      subst this
      simpa using h1
    · rcases out x h1 with h2 | ⟨h3, h2⟩
      · rw [h2] at hx; simp [orphan] at hx
      · rw [h2] at hx
        have hr : r ≠ rt := by rintro rfl; exact h3 (R.owned x r hx)
        rw [Function.update_of_ne hr]
        exact R.owned x r hx

theorem Rep.insertRoot (R : Rep h ts) (x : Fin N) (rt : Fin M) :
    ((h.cell x).root = none ∧ ts rt = leaf ∧ ∃ h' t', Tree.insertRoot h x rt = some (h', some x) ∧
      t'.inorder = [x] ∧ Rep h' (Function.update ts rt t')) ∨
    (((h.cell x).root ≠ none ∨ ts rt ≠ leaf) ∧ Tree.insertRoot h x rt = some (h, none)) := by
  by_cases hx : (h.cell x).root = none
  · by_cases ht : ts rt = leaf
    · left
      have hT := R.tr rt
      rw [ht] at hT
      have ho := R.orphans x hx
      obtain ⟨h', t', e1, e2, e3, e4, e5⟩ := insertRoot_tr hT ho
      refine ⟨hx, ht, h', t', e1, e3, R.update e2 ?_ ?_ ?_ e5⟩
      · intro z hz
        rw [e3, List.mem_singleton] at hz
        subst hz
        exact Or.inr ho
      · intro z hz; rw [ht] at hz; simp [inorder] at hz
      · intro z _ hz
        rw [e3, List.mem_singleton] at hz
        exact e4 z hz
    · right
      refine ⟨Or.inr ht, ?_⟩
      unfold Tree.insertRoot insertLeftOrRoot
      rw [if_neg (by simp [hx])]
      have : h.top rt ≠ none := by
        rw [(R.tr rt).holds.1]
        cases hc : ts rt with
        | leaf => exact absurd hc ht
        | node => simp [ptr]
      simp [this]
  · right
    refine ⟨Or.inl hx, ?_⟩
    unfold Tree.insertRoot insertLeftOrRoot
    rw [if_pos hx]

theorem Rep.insertLeft (R : Rep h ts) (x p : Fin N) (hp : (h.cell p).root = some rt) :
    ((h.cell x).root = none ∧ (h.cell p).left = none ∧ ∃ h' t' A B, Tree.insertLeft h x p = some (h', some x) ∧
      (ts rt).inorder = A ++ p :: B ∧ t'.inorder = A ++ x :: p :: B ∧ Rep h' (Function.update ts rt t')) ∨
    (((h.cell x).root ≠ none ∨ (h.cell p).left ≠ none) ∧ Tree.insertLeft h x p = some (h, none)) := by
  by_cases hx : (h.cell x).root = none
  · by_cases hl : (h.cell p).left = none
    · left
      have ho := R.orphans x hx
      obtain ⟨h', t', A, B, e1, e2, e3, e4, e5, e6⟩ := insertLeft_tr (R.tr rt) (R.mem_iff.mpr hp) hl ho
      refine ⟨hx, hl, h', t', A, B, e1, e3, e4, R.update e2 ?_ ?_ (fun z _ hz => e5 z hz) e6⟩
      · intro z hz
        rw [e4] at hz
        rw [e3]
        simp only [List.mem_append, List.mem_cons] at hz ⊢
        rcases hz with hz | rfl | hz
        · exact Or.inl (Or.inl hz)
        · exact Or.inr ho
        · exact Or.inl (Or.inr hz)
      · intro z hz hz'
        rw [e3] at hz
        rw [e4] at hz'
        simp only [List.mem_append, List.mem_cons] at hz hz'
        grind
    · right
      refine ⟨Or.inr hl, ?_⟩
      unfold Tree.insertLeft insertLeftOrRoot
      rw [if_neg (by simp [hx])]
      simp only []
      rw [if_pos hl]
  · right
    refine ⟨Or.inl hx, ?_⟩
    unfold Tree.insertLeft insertLeftOrRoot
    rw [if_pos hx]

theorem Rep.insertRight (R : Rep h ts) (x p : Fin N) (hp : (h.cell p).root = some rt) :
    ((h.cell x).root = none ∧ (h.cell p).right = none ∧ ∃ h' t' A B, Tree.insertRight h x p = some (h', some x) ∧
      (ts rt).inorder = A ++ p :: B ∧ t'.inorder = A ++ p :: x :: B ∧ Rep h' (Function.update ts rt t')) ∨
    (((h.cell x).root ≠ none ∨ (h.cell p).right ≠ none) ∧ Tree.insertRight h x p = some (h, none)) := by
  by_cases hx : (h.cell x).root = none
  · by_cases hl : (h.cell p).right = none
    · left
      have ho := R.orphans x hx
      obtain ⟨h', t', A, B, e1, e2, e3, e4, e5, e6⟩ := insertRight_tr (R.tr rt) (R.mem_iff.mpr hp) hl ho
      refine ⟨hx, hl, h', t', A, B, e1, e3, e4, R.update e2 ?_ ?_ (fun z _ hz => e5 z hz) e6⟩
      · intro z hz
        rw [e4] at hz
        rw [e3]
        simp only [List.mem_append, List.mem_cons] at hz ⊢
        rcases hz with hz | hz | rfl | hz
        · exact Or.inl (Or.inl hz)
        · exact Or.inl (Or.inr (Or.inl hz))
        · exact Or.inr ho
        · exact Or.inl (Or.inr (Or.inr hz))
      · intro z hz hz'
        rw [e3] at hz
        rw [e4] at hz'
        simp only [List.mem_append, List.mem_cons] at hz hz'
        grind
    · right
      refine ⟨Or.inr hl, ?_⟩
      unfold Tree.insertRight insertRightOrRoot
      rw [if_neg (by simp [hx])]
      simp only []
      rw [if_pos hl]
  · right
    refine ⟨Or.inl hx, ?_⟩
    unfold Tree.insertRight insertRightOrRoot
    rw [if_pos hx]

theorem insertLeft_orphan {x p : Fin N} (R : Rep h ts) (hp : (h.cell p).root = none) :
    Tree.insertLeft h x p = if (h.cell x).root = none then none else some (h, none) := by
  have ho := R.orphans p hp
  unfold Tree.insertLeft insertLeftOrRoot
  by_cases hx : (h.cell x).root = none
  · rw [if_neg (by simp [hx]), if_pos hx]
    simp only []
    rw [if_neg (by rw [ho]; simp [orphan]), linkNode_eq, ho]
    simp only [Heap.setLeft, setCell_cell]
    by_cases hpx : x = p <;> simp [hpx, orphan]
  · rw [if_pos hx, if_neg hx]

theorem insertRight_orphan {x p : Fin N} (R : Rep h ts) (hp : (h.cell p).root = none) :
    Tree.insertRight h x p = if (h.cell x).root = none then none else some (h, none) := by
  have ho := R.orphans p hp
  unfold Tree.insertRight insertRightOrRoot
  by_cases hx : (h.cell x).root = none
  · rw [if_neg (by simp [hx]), if_pos hx]
    simp only []
    rw [if_neg (by rw [ho]; simp [orphan]), linkNode_eq, ho]
    simp only [Heap.setRight, setCell_cell]
    by_cases hpx : x = p <;> simp [hpx, orphan]
  · rw [if_pos hx, if_neg hx]

theorem Rep.remove (R : Rep h ts) (x : Fin N) :
    (∃ rt h' t', (h.cell x).root = some rt ∧ Tree.remove h x = some (h', some x) ∧
      t'.inorder = (ts rt).inorder.erase x ∧ Rep h' (Function.update ts rt t')) ∨
    ((h.cell x).root = none ∧ Tree.remove h x = some (h, none)) := by
  cases hx : (h.cell x).root with
  | none =>
    right
    refine ⟨rfl, ?_⟩
    unfold Tree.remove
    rw [hx]
  | some rt =>
    left
    have hm := R.mem_iff.mpr hx
    obtain ⟨h', t', e1, e2, e3, e4, e5, e6⟩ := remove_tr (R.tr rt) hm
    have hsub : ∀ z ∈ t'.inorder, z ∈ (ts rt).inorder := fun z hz =>
      List.mem_of_mem_erase (e3 ▸ hz)
    refine ⟨rt, h', t', rfl, e1, e3, R.update e2 (fun z hz => Or.inl (hsub z hz)) ?_
      (fun z hz _ => e5 z hz) e6⟩
    intro z hz hz'
    have : z = x := by
      by_contra hne
      exact hz' (e3 ▸ (List.mem_erase_of_ne hne).mpr hz)
    rw [this]; exact e4

theorem Rep.replace (R : Rep h ts) (x y : Fin N) :
    (∃ rt h' t' A B, (h.cell x).root = some rt ∧ (h.cell y).root = none ∧
      Tree.replace h x y = (h', some x) ∧ (ts rt).inorder = A ++ x :: B ∧ t'.inorder = A ++ y :: B ∧
      Rep h' (Function.update ts rt t')) ∨
    (((h.cell x).root = none ∨ (h.cell y).root ≠ none) ∧ Tree.replace h x y = (h, none)) := by
  cases hx : (h.cell x).root with
  | none =>
    right
    refine ⟨Or.inl rfl, ?_⟩
    unfold Tree.replace
    rw [hx]
  | some rt =>
    by_cases hy : (h.cell y).root = none
    · left
      have ho := R.orphans y hy
      obtain ⟨h', t', A, B, e1, e2, e3, e4, e5, e6, e7⟩ := replace_tr (R.tr rt) (R.mem_iff.mpr hx) ho
      refine ⟨rt, h', t', A, B, rfl, hy, e1, e3, e4, R.update e2 ?_ ?_ ?_ e7⟩
      · intro z hz
        rw [e4] at hz
        rw [e3]
        simp only [List.mem_append, List.mem_cons] at hz ⊢
        rcases hz with hz | rfl | hz
        · exact Or.inl (Or.inl hz)
        · exact Or.inr ho
        · exact Or.inl (Or.inr (Or.inr hz))
      · intro z hz hz'
        rw [e3] at hz
        rw [e4] at hz'
        simp only [List.mem_append, List.mem_cons] at hz hz'
        have : z = x := by grind
        rw [this]; exact e5
      · intro z hz hz'
        refine e6 z hz ?_
        rintro rfl
        exact hz' (by rw [e4]; simp)
    · right
      refine ⟨Or.inr hy, ?_⟩
      unfold Tree.replace
      rw [hx]
      simp only []
      rw [if_pos hy]

end Diminuto.Tree
