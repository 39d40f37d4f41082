import Verif.TreeAudit
import Mathlib.Data.Fintype.Card

/-!
# Lemmas about the Tree: what the audit accepts
-/

namespace Diminuto.Tree

open Frame T

variable {N M : Nat} {h : Heap N M} {rt : Fin M}

/-- Following the parents `j` times. -/
def up (h : Heap N M) : Nat → Option (Fin N) → Option (Fin N)
  | 0, o => o
  | j + 1, o => up h j (o.bind fun n => (h.cell n).parent)

theorem up_none (h : Heap N M) (j : Nat) : up h j none = none := by
  induction j with
  | zero => rfl
  | succ j ih => exact ih

theorem up_add (h : Heap N M) (i j : Nat) (o : Option (Fin N)) : up h (i + j) o = up h j (up h i o) := by
  induction i generalizing o with
  | zero => simp [up]
  | succ i ih => rw [Nat.succ_add]; exact ih _

/-- The chain of parents has length `e`. -/
def Chain (h : Heap N M) (o : Option (Fin N)) (e : Nat) : Prop := ∀ j, up h j o = none ↔ e ≤ j

theorem chain_none : Chain h none 0 := fun j => by simp [up_none]

theorem Chain.unique {o : Option (Fin N)} {e e' : Nat} (h1 : Chain h o e) (h2 : Chain h o e') : e = e' := by
  have a := (h2 e).mp ((h1 e).mpr (Nat.le_refl _))
  have b := (h1 e').mp ((h2 e').mpr (Nat.le_refl _))
  omega

theorem Chain.cons {p : Option (Fin N)} {x : Fin N} {e : Nat} (hc : Chain h p e) (hp : (h.cell x).parent = p) :
    Chain h (some x) (e + 1) := by
  intro j
  cases j with
  | zero => simp [up]
  | succ j =>
    simp only [up, Option.bind_some, hp]
    rw [hc j]; omega

theorem Chain.le {o : Option (Fin N)} {e : Nat} (hc : Chain h o e) : e ≤ N := by
  have hs : ∀ i : Fin e, ∃ n, up h i o = some n := by
    intro i
    have : up h i o ≠ none := fun hn => by
      have := (hc i).mp hn
      omega
    exact Option.ne_none_iff_exists'.mp this
  choose f hf using hs
  have inj : Function.Injective f := by
    have key : ∀ i j : Fin e, i < j → f i = f j → False := by
      intro i j hij hfe
      have h1 : up h (i + (e - j)) o = none := by
        rw [up_add, hf i, hfe, ← hf j, ← up_add]
        exact (hc _).mpr (by omega)
      have := (hc _).mp h1
      have : (i : Nat) < j := hij
      omega
    intro i j hfe
    rcases Nat.lt_trichotomy i j with h1 | h1 | h1
    · exact (key i j h1 hfe).elim
    · exact Fin.ext h1
    · exact (key j i h1 hfe.symm).elim
  simpa using Fintype.card_le_of_injective f inj

theorem auditChild_ne {n : Fin N} {c : Option (Fin N)} {hp : Int} {f : Fin N → Option (Option (Fin N) × Int)}
    (hf : ∀ y, f y ≠ none) : auditChild h n c hp f ≠ none := by
  unfold auditChild
  cases c with
  | none => simp
  | some y =>
    simp only []
    split
    · simp
    · exact hf y

theorem auditNode_defined {fuel e : Nat} {x : Fin N} {p : Option (Fin N)} {g hp : Int} (hc : Chain h p e)
    (hf : N + 1 ≤ fuel + e) : auditNode h rt fuel x p g hp ≠ none := by
  induction fuel generalizing e x p g hp with
  | zero => have := hc.le; omega
  | succ fuel ih =>
    unfold auditNode
    by_cases c1 : (h.cell x).root ≠ some rt
    · rw [if_pos c1]; simp
    rw [if_neg c1]
    by_cases c2 : (h.cell x).parent ≠ p
    · rw [if_pos c2]; simp
    rw [if_neg c2]
    have hc' := hc.cons (not_not.mp c2)
    by_cases c3 : h.top rt = some x ∧ p ≠ none
    · rw [if_pos c3]; simp
    rw [if_neg c3]
    by_cases c4 : auditLink h rt x p = false
    · rw [if_pos c4]; simp
    rw [if_neg c4]
    by_cases c5 : (h.cell x).error = true
    · rw [if_pos c5]; simp
    rw [if_neg c5]
    have child : ∀ (g hp : Int) (y : Fin N), auditNode h rt fuel y (some x) g hp ≠ none :=
      fun g hp y => ih hc' (by omega)
    simp only []
    obtain ⟨⟨r1, q1⟩, e1⟩ := Option.ne_none_iff_exists'.mp (auditChild_ne (h := h) (n := x) (c := (h.cell x).left)
      (hp := hp) (child (if (h.cell x).color = .black then g + 1 else g) hp))
    rw [e1]
    simp only [Option.bind_some]
    split
    · simp
    obtain ⟨⟨r2, q2⟩, e2⟩ := Option.ne_none_iff_exists'.mp (auditChild_ne (h := h) (n := x) (c := (h.cell x).right)
      (hp := q1) (child (if (h.cell x).color = .black then g + 1 else g) q1))
    rw [e2]
    simp only [Option.bind_some]
    split
    · simp
    split
    · simp
    split
    · simp
    split <;> split <;> simp

theorem ends_node (c : Color) (l r : T N) (n : Fin N) (hne : l ≠ leaf ∨ r ≠ leaf) :
    (node c l n r).ends = (l.ends ++ r.ends).map (c :: ·) := by
  cases l with
  | leaf =>
    cases r with
    | leaf => simp at hne
    | node => rfl
  | node => rfl

/-- What is known about a child that the audit has accepted, the number of black nodes on each
path to a childless node being `hp'` with those above. -/
def Accepted (h : Heap N M) (rt : Fin M) (n : Fin N) (red : Prop) (g hp hp' : Int) (t : T N) : Prop :=
  Linked h rt (some n) t ∧ t.NoRedRed ∧ (red → t.color = .black) ∧
    (∀ p ∈ t.ends, g + p.count .black = hp') ∧ (0 ≤ hp → hp' = hp) ∧ (t ≠ leaf → 0 ≤ hp')

theorem auditChild_sound {n : Fin N} {c : Option (Fin N)} {g hp hp' : Int}
    {f : Fin N → Option (Option (Fin N) × Int)} (e : auditChild h n c hp f = some (none, hp'))
    (hf : ∀ y, f y = some (none, hp') → ∃ t : T N, t.ptr = some y ∧ Accepted h rt n False g hp hp' t ∧
      (h.cell y).color = t.color) :
    ∃ t : T N, t.ptr = c ∧ Accepted h rt n ((h.cell n).color = .red) g hp hp' t ∧ (c = none → hp' = hp) := by
  unfold auditChild at e
  cases c with
  | none =>
    simp only [Option.some.injEq, Prod.mk.injEq, true_and] at e
    refine ⟨leaf, rfl, ⟨trivial, trivial, fun _ => rfl, by simp [ends], fun _ => e.symm, by simp⟩, fun _ => e.symm⟩
  | some y =>
    simp only [] at e
    split at e
    · simp at e
    · rename_i hne
      obtain ⟨t, h1, ⟨h2, h3, _, h5⟩, h6⟩ := hf y e
      refine ⟨t, h1, ⟨h2, h3, fun hr => ?_, h5⟩, by simp⟩
      by_contra hb
      exact hne ⟨hr, by rw [h6]; exact hb⟩

theorem auditNode_sound {fuel : Nat} {x : Fin N} {p : Option (Fin N)} {g hp hp' : Int} (hg : 0 ≤ g)
    (e : auditNode h rt fuel x p g hp = some (none, hp')) :
    ∃ t : T N, t.ptr = some x ∧ Linked h rt p t ∧ t.NoRedRed ∧ (h.cell x).color = t.color ∧
      (∀ q ∈ t.ends, g + q.count .black = hp') ∧ (0 ≤ hp → hp' = hp) ∧ 0 ≤ hp' ∧
      (p = none → t.color = .black) := by
  induction fuel generalizing x p g hp hp' with
  | zero => simp [auditNode] at e
  | succ fuel ih =>
    unfold auditNode at e
    by_cases c1 : (h.cell x).root ≠ some rt
    · rw [if_pos c1] at e; simp at e
    rw [if_neg c1] at e
    by_cases c2 : (h.cell x).parent ≠ p
    · rw [if_pos c2] at e; simp at e
    rw [if_neg c2] at e
    by_cases c3 : h.top rt = some x ∧ p ≠ none
    · rw [if_pos c3] at e; simp at e
    rw [if_neg c3] at e
    by_cases c4 : auditLink h rt x p = false
    · rw [if_pos c4] at e; simp at e
    rw [if_neg c4] at e
    by_cases c5 : (h.cell x).error = true
    · rw [if_pos c5] at e; simp at e
    rw [if_neg c5] at e
    simp only [] at e
    have hg' : 0 ≤ (if (h.cell x).color = .black then g + 1 else g) := by split <;> omega
    have hcount : ∀ q : List Color, g + (((h.cell x).color :: q).count .black : Nat) =
        (if (h.cell x).color = .black then g + 1 else g) + (q.count .black : Nat) := by
      intro q
      cases (h.cell x).color <;> simp
      omega
    generalize hgg : (if (h.cell x).color = .black then g + 1 else g) = g' at e hg' hcount
    have rec' : ∀ (hp hp' : Int) (y : Fin N), auditNode h rt fuel y (some x) g' hp = some (none, hp') →
        ∃ t : T N, t.ptr = some y ∧ Accepted h rt x False g' hp hp' t ∧ (h.cell y).color = t.color := by
      intro hp hp' y ey
      obtain ⟨t, h1, h2, h3, h4, h5, h6, h7, _⟩ := ih hg' ey
      exact ⟨t, h1, ⟨h2, h3, False.elim, h5, h6, fun _ => h7⟩, h4⟩
    cases e1 : auditChild h x (h.cell x).left hp (fun l => auditNode h rt fuel l (some x) g' hp) with
    | none => rw [e1] at e; simp at e
    | some r1 =>
      obtain ⟨r1, q1⟩ := r1
      rw [e1] at e
      simp only [Option.bind_some] at e
      cases r1 with
      | some => simp at e
      | none =>
        simp only [ne_eq, not_true_eq_false, if_false] at e
        obtain ⟨l, l1, ⟨l2, l3, l4, l5, l6, l6'⟩, l7⟩ := auditChild_sound (rt := rt) (g := g') e1 (rec' hp q1)
        cases e2 : auditChild h x (h.cell x).right q1 (fun r => auditNode h rt fuel r (some x) g' q1) with
        | none => rw [e2] at e; simp at e
        | some r2 =>
          obtain ⟨r2, q2⟩ := r2
          rw [e2] at e
          simp only [Option.bind_some] at e
          cases r2 with
          | some => simp at e
          | none =>
            simp only [not_true_eq_false, if_false] at e
            obtain ⟨r, r1, ⟨r2, r3, r4, r5, r6, r6'⟩, r7⟩ :=
              auditChild_sound (rt := rt) (g := g') e2 (rec' q1 q2)
            have hcell : h.cell x = ⟨p, l.ptr, r.ptr, some rt, (h.cell x).color, false⟩ := by
              rw [l1, r1]
              have a1 := not_not.mp c1
              have a2 := not_not.mp c2
              have a3 : (h.cell x).error = false := by simpa using c5
              revert a1 a2 a3
              cases h.cell x
              rintro ⟨⟩ ⟨⟩ ⟨⟩
              rfl
            refine ⟨node (h.cell x).color l x r, rfl, ⟨hcell, l2, r2⟩, ⟨fun hc => ⟨l4 hc, r4 hc⟩, l3, r3⟩, rfl, ?_⟩
            have hroot : p = none → (node (h.cell x).color l x r).color = .black := by
              rintro rfl
              simp only [auditLink, Bool.and_eq_false_iff, not_or] at c4
              change (h.cell x).color = .black
              simpa using c4.2
            split at e
            · rename_i hch
              simp only [Option.some.injEq, Prod.mk.injEq, true_and] at e
              subst e
              have hne : l ≠ leaf ∨ r ≠ leaf := by
                rw [← l1, ← r1] at hch
                rcases hch with hch | hch
                · left; rintro rfl; exact hch rfl
                · right; rintro rfl; exact hch rfl
              have hq : l ≠ leaf → q2 = q1 := fun hl => r6 (l6' hl)
              refine ⟨?_, fun h0 => ?_, ?_, hroot⟩
              · rw [ends_node _ _ _ _ hne]
                intro q hq'
                simp only [List.mem_map, List.mem_append] at hq'
                obtain ⟨q', hq' | hq', rfl⟩ := hq'
                · rw [hcount, l5 q' hq']
                  have : l ≠ leaf := by rintro rfl; simp [ends] at hq'
                  exact (hq this).symm
                · rw [hcount, r5 q' hq']
              · have := l6 h0
                rw [this] at r6
                exact r6 h0
              · rcases hne with hne | hne
                · rw [hq hne]; exact l6' hne
                · exact r6' hne
            · rename_i hch
              simp only [not_or, not_not] at hch
              have hl0 : l = leaf := by
                cases l with
                | leaf => rfl
                | node => rw [hch.1] at l1; simp [ptr] at l1
              have hr0 : r = leaf := by
                cases r with
                | leaf => rfl
                | node => rw [hch.2] at r1; simp [ptr] at r1
              subst hl0 hr0
              have hq : q2 = hp := by rw [r7 hch.2, l7 hch.1]
              subst hq
              have hends : ∀ q ∈ (node (h.cell x).color leaf x leaf : T N).ends, g + (q.count .black : Nat) = g' := by
                intro q hq
                simp only [ends, List.mem_singleton] at hq
                rw [hq, hcount]; simp
              split at e
              · simp only [Option.some.injEq, Prod.mk.injEq, true_and] at e
                subst e
                exact ⟨hends, fun h0 => by omega, hg', hroot⟩
              · split at e
                · rename_i hq
                  simp only [Option.some.injEq, Prod.mk.injEq, true_and] at e
                  subst e
                  rw [hq]
                  exact ⟨hends, fun _ => rfl, hg', hroot⟩
                · simp at e

theorem linked_nodup {t : T N} {p : Option (Fin N)} {e : Nat} (hl : Linked h rt p t) (hc : Chain h p e)
    (htw : ∀ n y, (h.cell n).left = some y → (h.cell n).right ≠ some y) :
    t.inorder.Nodup ∧ ∀ x ∈ t.inorder, ∃ d, up h d (some x) = t.ptr ∧ Chain h (some x) (e + 1 + d) := by
  induction t generalizing p e with
  | leaf => simp [inorder]
  | node c l n r ihl ihr =>
    have hn : Chain h (some n) (e + 1) := hc.cons (by rw [hl.1])
    obtain ⟨a1, a2⟩ := ihl hl.2.1 hn
    obtain ⟨b1, b2⟩ := ihr hl.2.2 hn
    have hnl : n ∉ l.inorder := by
      intro hm
      obtain ⟨d, _, h2⟩ := a2 n hm
      have := h2.unique hn
      omega
    have hnr : n ∉ r.inorder := by
      intro hm
      obtain ⟨d, _, h2⟩ := b2 n hm
      have := h2.unique hn
      omega
    have hlr : ∀ x ∈ l.inorder, x ∉ r.inorder := by
      intro x h1 h2
      obtain ⟨d, u1, u2⟩ := a2 x h1
      obtain ⟨d', v1, v2⟩ := b2 x h2
      have := u2.unique v2
      have hdd : d = d' := by omega
      subst hdd
      rw [u1] at v1
      cases hlp : l.ptr with
      | none =>
        cases l with
        | leaf => simp [inorder] at h1
        | node => simp [ptr] at hlp
      | some y =>
        refine htw n y ?_ ?_
        · rw [hl.1]; exact hlp
        · rw [hl.1]; exact v1.symm.trans hlp
    refine ⟨?_, ?_⟩
    · simp only [inorder, List.nodup_append, List.nodup_cons, List.mem_cons]
      grind
    · have lift : ∀ (t : T N) (x : Fin N) (d : Nat), Linked h rt (some n) t → x ∈ t.inorder →
          up h d (some x) = t.ptr → Chain h (some x) (e + 1 + 1 + d) →
          ∃ d, up h d (some x) = (node c l n r).ptr ∧ Chain h (some x) (e + 1 + d) := by
        intro t x d ht hx u1 u2
        refine ⟨d + 1, ?_, by rw [show e + 1 + (d + 1) = e + 1 + 1 + d by omega]; exact u2⟩
        rw [up_add, u1]
        cases t with
        | leaf => simp [inorder] at hx
        | node c' l' n' r' =>
          simp only [ptr, up, Option.bind_some, ht.1]
      intro x hx
      simp only [inorder, List.mem_append, List.mem_cons] at hx
      rcases hx with hx | rfl | hx
      · obtain ⟨d, u1, u2⟩ := a2 x hx
        exact lift l x d hl.2.1 hx u1 u2
      · exact ⟨0, rfl, hn⟩
      · obtain ⟨d, u1, u2⟩ := b2 x hx
        exact lift r x d hl.2.2 hx u1 u2

end Diminuto.Tree
