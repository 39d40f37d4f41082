import Verif.TreeProps

/-!
# Properties of the audit of the Tree module

The claim that the audit accepts exactly the valid red-black trees is false: it accepts all of them,
but also some others.
-/

namespace Diminuto.Tree

open T

variable {N M : Nat} {h : Heap N M}

/-- The audit accepts exactly the valid red-black trees.  (False, see below.) -/
def AuditExact : Prop :=
  ∀ (N M : Nat) (h : Heap N M) (rt : Fin M),
    audit h rt = some none ↔ ∃ t : T N, Holds h rt t ∧ t.RedBlack

/-- The audit accepts every valid red-black tree, in particular every tree that calls lead to. -/
theorem audit_accepts (rt : Fin M) (t : T N) (hh : Holds h rt t) (hr : t.RedBlack) : audit h rt = some none :=
  audit_complete hh hr

theorem audit_accepts_reached (hr : Reach h) (rt : Fin M) : audit h rt = some none := by
  obtain ⟨t, hh, hrb, _⟩ := tree_redblack hr rt
  exact audit_complete hh hrb

/-- Whatever the nodes contain, the audit does not go round in circles. -/
theorem audit_terminates (h : Heap N M) (rt : Fin M) : audit h rt ≠ none := by
  unfold audit
  cases h.top rt with
  | none => simp
  | some n => simpa using auditNode_defined (h := h) (rt := rt) (x := n) (g := 0) (hp := -1) chain_none (by omega)

/-- What a tree that is accepted is like, whatever the nodes contain: parents, children, root
pointers and error marks are right, the root is black, no red node has a red child, and the paths
to the nodes without children have the same number of black nodes.  Provided that no node has
twice the same child, no node occurs twice. -/
theorem audit_exact_partial (rt : Fin M) (ha : audit h rt = some none) :
    ∃ t : T N, h.top rt = t.ptr ∧ Linked h rt none t ∧ t.color = .black ∧ t.NoRedRed ∧
      (∀ p ∈ t.ends, ∀ q ∈ t.ends, p.count .black = q.count .black) ∧
      ((∀ n y, (h.cell n).left = some y → (h.cell n).right ≠ some y) → Holds h rt t) := by
  unfold audit at ha
  cases htop : h.top rt with
  | none =>
    exact ⟨leaf, rfl, trivial, rfl, trivial, by simp [ends], fun _ => ⟨htop, trivial, by simp [inorder]⟩⟩
  | some n =>
    rw [htop] at ha
    simp only [Option.map_eq_some_iff, Prod.exists, exists_and_right, exists_eq_right] at ha
    obtain ⟨hp', ha⟩ := ha
    obtain ⟨t, h1, h2, h3, h4, h5, _, _, h6⟩ := auditNode_sound (Int.le_refl 0) ha
    refine ⟨t, h1.symm, h2, h6 rfl, h3, ?_, fun htw => ⟨htop.trans h1.symm, h2, (linked_nodup h2 chain_none htw).1⟩⟩
    intro p hp q hq
    have a := h5 p hp
    have b := h5 q hq
    omega

/-- A black root whose only child is a black node: not red-black, but accepted, because the number of
black nodes is only compared at nodes without children. -/
def lopsided : Heap 2 1 :=
  { cell := fun x => if x = 0 then ⟨none, some 1, none, some 0, .black, false⟩
      else ⟨some 0, none, none, some 0, .black, false⟩
    top := fun _ => some 0 }

theorem holds_unique {rt : Fin M} {p : Option (Fin N)} {t t' : T N} (h1 : Linked h rt p t) (h2 : Linked h rt p t')
    (e : t.ptr = t'.ptr) : t = t' := by
  induction t generalizing p t' with
  | leaf =>
    cases t' with
    | leaf => rfl
    | node => simp [ptr] at e
  | node c l n r ihl ihr =>
    cases t' with
    | leaf => simp [ptr] at e
    | node c' l' n' r' =>
      simp only [ptr, Option.some.injEq] at e
      subst e
      have := h1.1.symm.trans h2.1
      simp only [Cell.mk.injEq, true_and] at this
      obtain ⟨e1, e2, e3, _⟩ := this
      rw [ihl h1.2.1 h2.2.1 e1, ihr h1.2.2 h2.2.2 e2, e3]

theorem audit_lopsided_counterexample :
    audit lopsided 0 = some none ∧ ¬ ∃ t : T 2, Holds lopsided 0 t ∧ t.RedBlack := by
  refine ⟨by decide, ?_⟩
  rintro ⟨t, hh, hr⟩
  have hl : Linked lopsided 0 none (node .black (node .black leaf 1 leaf) 0 leaf) :=
    ⟨rfl, ⟨rfl, trivial, trivial⟩, trivial⟩
  have ht := holds_unique hh.2.1 hl (hh.1.symm.trans rfl)
  subst ht
  have := hr.2.2 [.black, .black] (by simp [paths]) [.black] (by simp [paths])
  simp at this

/-- A black root that has the same red node as left and right child: not a tree, but accepted. -/
def twin : Heap 2 1 :=
  { cell := fun x => if x = 0 then ⟨none, some 1, some 1, some 0, .black, false⟩
      else ⟨some 0, none, none, some 0, .red, false⟩
    top := fun _ => some 0 }

theorem audit_twin_counterexample :
    audit twin 0 = some none ∧ ¬ ∃ t : T 2, Holds twin 0 t := by
  refine ⟨by decide, ?_⟩
  rintro ⟨t, hh⟩
  have hl : Linked twin 0 none (node .black (node .red leaf 1 leaf) 0 (node .red leaf 1 leaf)) :=
    ⟨rfl, ⟨rfl, trivial, trivial⟩, ⟨rfl, trivial, trivial⟩⟩
  have ht := holds_unique hh.2.1 hl (hh.1.symm.trans rfl)
  subst ht
  have := hh.2.2
  simp [inorder] at this

theorem audit_exact_counterexample : ¬ AuditExact := by
  intro ha
  obtain ⟨h1, h2⟩ := audit_lopsided_counterexample
  exact h2 ((ha 2 1 lopsided 0).mp h1)

/-- The audit does refuse: two red nodes in a row. -/
example : audit (N := 3) (M := 1)
    { cell := fun x => if x = 0 then ⟨none, some 1, none, some 0, .black, false⟩
        else if x = 1 then ⟨some 0, some 2, none, some 0, .red, false⟩
        else ⟨some 1, none, none, some 0, .red, false⟩
      top := fun _ => some 0 } 0 = some (some 1) := by decide

end Diminuto.Tree
