import Verif.TreeStore

/-!
# Lemmas about the Tree: the audit
-/

namespace Diminuto.Tree

open Frame T

variable {N M : Nat} {h : Heap N M} {rt : Fin M}

theorem linked_color {t : T N} {p : Option (Fin N)} {x : Fin N} (hl : Linked h rt p t) (hx : t.ptr = some x) :
    (h.cell x).color = t.color := by
  cases t with
  | leaf => simp [ptr] at hx
  | node c l n r =>
    simp only [ptr, Option.some.injEq] at hx
    subst hx
    rw [hl.1]; rfl

theorem auditNode_complete {t : T N} {p : Option (Fin N)} {x : Fin N} {m fuel : Nat} {g hp : Int}
    (hx : t.ptr = some x) (hl : Linked h rt p t) (hr : RB t m) (hf : t.inorder.length ≤ fuel)
    (hk : auditLink h rt x p = true) (htop : ∀ y ∈ t.inorder, h.top rt = some y → p = none ∧ y = x)
    (hd : t.inorder.Nodup) (hg : 0 ≤ g) (hh : hp = -1 ∨ hp = g + m) :
    auditNode h rt fuel x p g hp = some (none, g + m) := by
  induction t generalizing p x m fuel g hp with
  | leaf => simp [ptr] at hx
  | node c l n r ihl ihr =>
    simp only [ptr, Option.some.injEq] at hx
    subst hx
    cases fuel with
    | zero => simp [inorder] at hf
    | succ fuel =>
      have hlen : l.inorder.length ≤ fuel ∧ r.inorder.length ≤ fuel := by
        simp only [inorder, List.length_append, List.length_cons] at hf; omega
      have hd' := hd
      simp only [inorder, List.nodup_append, List.nodup_cons, List.mem_cons] at hd'
      have htl : ∀ y ∈ l.inorder, h.top rt = some y → False := by
        intro y hy e
        have := (htop y (by simp [inorder, hy]) e).2
        grind
      have htr : ∀ y ∈ r.inorder, h.top rt = some y → False := by
        intro y hy e
        have := (htop y (by simp [inorder, hy]) e).2
        grind
      -- the number of black nodes below
      obtain ⟨m', hm', hml, hmr, hbl⟩ : ∃ m' : Nat, (g + m = (if c = .black then g + 1 else g) + m') ∧
          RB l m' ∧ RB r m' ∧ (c = .red → l.color = .black ∧ r.color = .black) := by
        cases c with
        | black =>
          obtain ⟨m', rfl, h1, h2⟩ := hr
          exact ⟨m', by simp only [if_true]; push_cast; omega, h1, h2, by simp⟩
        | red => exact ⟨m, by simp, hr.2.2.1, hr.2.2.2, fun _ => ⟨hr.1, hr.2.1⟩⟩
      have hg' : 0 ≤ (if c = .black then g + 1 else g) := by split <;> omega
      have child : ∀ (t : T N) (hp : Int), (∀ y ∈ t.inorder, h.top rt = some y → False) →
          Linked h rt (some n) t → (c = .red → t.color = .black) →
          (hp = -1 ∨ hp = g + m) →
          (∀ y, t.ptr = some y → auditNode h rt fuel y (some n) (if c = .black then g + 1 else g) hp =
            some (none, g + m)) →
          auditChild h n t.ptr hp (fun y => auditNode h rt fuel y (some n) (if c = .black then g + 1 else g) hp) =
            some (none, if t.ptr = none then hp else g + m) := by
        intro t hp _ h2 h3 _ h5
        unfold auditChild
        cases htp : t.ptr with
        | none => simp
        | some y =>
          have hne : ¬((h.cell n).color = .red ∧ (h.cell y).color ≠ .black) := by
            rintro ⟨e1, e2⟩
            rw [hl.1] at e1
            exact e2 ((linked_color h2 htp).trans (h3 e1))
          simp only [reduceCtorEq, if_false]
          rw [if_neg hne, h5 y htp]
      have hl1 := hl.1
      have childl := child l hp htl hl.2.1 (fun e => (hbl e).1) hh (fun y hy => by
        rw [hm']
        exact ihl hy hl.2.1 hml hlen.1 (by simp [auditLink, hl1, hy]) (fun z hz e => absurd e (htl z hz))
          hd'.1 hg' (by rw [← hm']; exact hh))
      have hh2 : (if l.ptr = none then hp else g + m) = -1 ∨ (if l.ptr = none then hp else g + m) = g + m := by
        split
        · exact hh
        · exact Or.inr rfl
      generalize hp₂e : (if l.ptr = none then hp else g + m) = hp₂ at hh2 childl
      have childr := child r hp₂ htr hl.2.2 (fun e => (hbl e).2) hh2 (fun y hy => by
        rw [hm']
        exact ihr hy hl.2.2 hmr hlen.2 (by simp [auditLink, hl1, hy]) (fun z hz e => absurd e (htr z hz))
          hd'.2.1.2 hg' (by rw [← hm']; exact hh2))
      unfold auditNode
      rw [hl1] at *
      simp only [ne_eq, not_true_eq_false, if_false]
      rw [if_neg (by rintro ⟨e, e'⟩; exact e' (htop n (by simp [inorder]) e).1), if_neg (by simp [hk])]
      simp only [Bool.false_eq_true, if_false]
      rw [childl]
      simp only [Option.bind_some, not_true_eq_false, if_false]
      rw [childr]
      simp only [Option.bind_some, not_true_eq_false, if_false]
      by_cases hrn : r.ptr = none
      · rw [if_pos hrn]
        by_cases hln : l.ptr = none
        · rw [if_neg (by simp [hrn, hln])]
          have hm0 : m' = 0 := by
            cases l with
            | leaf => exact hml
            | node => simp [ptr] at hln
          have hgm : g + m = if c = .black then g + 1 else g := by rw [hm', hm0]; simp
          rw [← hgm]
          rcases hh2 with e | e
          · rw [if_pos (by omega)]
          · rw [if_neg (by omega), if_pos e, e]
        · rw [if_pos (Or.inl hln)]
          rw [if_neg hln] at hp₂e
          rw [hp₂e]
      · rw [if_pos (Or.inr hrn), if_neg hrn]

theorem audit_complete {t : T N} (hh : Holds h rt t) (hr : t.RedBlack) : audit h rt = some none := by
  obtain ⟨⟨m, hm⟩, hc⟩ := rb_redblack.mp hr
  unfold audit
  rw [hh.1]
  cases t with
  | leaf => rfl
  | node c l n r =>
    simp only [ptr]
    rw [auditNode_complete (m := m) (t := node c l n r) rfl hh.2.1 hm
      (by have := nodup_length hh.2.2; omega) ?_ ?_ hh.2.2 (by omega) (Or.inl rfl)]
    · rfl
    · simp only [auditLink, Bool.and_eq_true, beq_iff_eq]
      exact ⟨hh.1, (linked_color hh.2.1 rfl).trans hc⟩
    · intro y _ e
      rw [hh.1] at e
      exact ⟨rfl, (Option.some.inj e).symm⟩

end Diminuto.Tree
