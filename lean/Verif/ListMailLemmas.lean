import Verif.ListProps
import Verif.ListMailSpec

/-!
# Helper lemmas on mailboxes
-/

namespace Diminuto.DList

variable {N : Nat}

/-- The mailboxes are rings. -/
def Holds (box : Node N → Bool) (A : Rings N) (f : Boxes N) : Prop := ∀ b, box b = true → b :: f b ∈ A

theorem erase_cons_ne (b m : Node N) (l : List (Node N)) (h : b ≠ m) : (b :: l).erase m = b :: l.erase m := by
  rw [List.erase_cons, if_neg (by simpa using h)]

theorem holds_remove {h : Heap N} {A : Rings N} (hR : Rep h A) (b m : Node N) (l : List (Node N)) (hl : b :: l ∈ A) (hb : b ≠ m) : b :: l.erase m ∈ specRemove A m := by
  rw [← erase_cons_ne b m l hb]
  by_cases hm : m ∈ b :: l
  · have hr := ringOf_eq hR hl hm
    unfold specRemove
    simp only [hr]
    rw [if_neg (fun e => hb (List.cons.inj e).1)]
    simp
  · rw [List.erase_of_not_mem hm]
    exact ringOf_specRemove hR m hl hm

theorem holds_insert {h : Heap N} {A : Rings N} (hR : Rep h A) (p m b : Node N) (l : List (Node N)) (hl : b :: l ∈ A) (hb : b ≠ m) (hpm : p ≠ m) :
    (p ∈ b :: l → insertAfter p [m] (b :: l.erase m) ∈ specInsert A p m) ∧ (p ∉ b :: l → b :: l.erase m ∈ specInsert A p m) := by
  obtain ⟨h1, _, hR1⟩ := remove_rep h A m hR
  have hl' := holds_remove hR b m l hl hb
  unfold specInsert
  simp only []
  rw [if_neg hpm]
  constructor
  · intro hp
    have : p ∈ b :: l.erase m := by
      rw [← erase_cons_ne b m l hb]
      exact (List.mem_erase_of_ne hpm).mpr hp
    rw [ringOf_eq hR1 hl' this]
    simp
  · intro hp
    apply List.mem_cons_of_mem
    have hne : b :: l.erase m ≠ ringOf (specRemove A m) p := by
      intro e
      apply hp
      have := (ringOf_spec hR1 p).2
      rw [← e, ← erase_cons_ne b m l hb] at this
      exact List.mem_of_mem_erase this
    exact (List.mem_erase_of_ne (fun e => hb (List.cons.inj e).1)).mpr ((List.mem_erase_of_ne hne).mpr hl')

theorem insertAfter_erase_last (init : List (Node N)) (p m : Node N) (hnd : (init ++ [p]).Nodup) (hpm : p ≠ m) : insertAfter p [m] ((init ++ [p]).erase m) = (init ++ [p]).erase m ++ [m] := by
  have hp : p ∉ init := by
    rw [List.nodup_append] at hnd
    exact fun hm => hnd.2.2 p hm p (by simp) rfl
  have he : (init ++ [p]).erase m = init.erase m ++ [p] := by
    by_cases hm : m ∈ init
    · rw [List.erase_append_left _ hm]
    · rw [List.erase_append_right _ hm, List.erase_of_not_mem hm, List.erase_of_not_mem (by simpa using hpm.symm)]
  rw [he, insertAfter_eq p [m] [] _ (fun h => hp (List.mem_of_mem_erase h))]
  simp

theorem box_unique {h : Heap N} {A : Rings N} (hR : Rep h A) (b c p : Node N) (k l : List (Node N)) (hb : b :: k ∈ A) (hc : c :: l ∈ A) (hpb : p ∈ b :: k) (hpc : p ∈ c :: l) : b = c :=
  (List.cons.inj (rep_unique hR hb hc hpb hpc)).1

theorem mail_step (box : Node N → Bool) (h : Heap N) (A : Rings N) (f : Boxes N) (hR : Rep h A) (hB : Holds box A f) (o : Mail N) (ho : Proper box o)
    (hn : ∀ b m, o = .send b m → (f b).getLast? ≠ some m) :
    ∃ h' A', mail h o = some (h', (specMail f o).2) ∧ Rep h' A' ∧ Holds box A' (specMail f o).1 := by
  have diff : ∀ b m, box b = true → box m = false → b ≠ m := by
    rintro b m h1 h2 rfl
    rw [h1] at h2
    cases h2
  cases o with
  | send b m =>
    obtain ⟨hb, hm⟩ := ho
    have hbm := diff b m hb hm
    obtain ⟨h1, e1, r1⟩ := list_step_refines h A (.enqueue b m) hR
    refine ⟨h1, _, e1, r1, ?_⟩
    have hring := ringOf_eq hR (hB b hb) (x := b) (by simp)
    obtain ⟨init, p, hp⟩ : ∃ init p, b :: f b = init ++ [p] := by
      rcases List.eq_nil_or_concat (b :: f b) with h0 | ⟨i, p, h0⟩
      · cases h0
      · exact ⟨i, p, by rw [h0, List.concat_eq_append]⟩
    have hlast : (ringOf A b).getLastD b = p := by
      rw [hring, hp]
      simp [List.getLastD_eq_getLast?]
    have hpm : p ≠ m := by
      rintro rfl
      have h1 := hn b p rfl
      cases hf : f b with
      | nil =>
        rw [hf] at hp
        have := congrArg List.getLast? hp
        simp at this
        exact hbm this
      | cons y t =>
        apply h1
        have := congrArg List.getLast? hp
        rw [hf] at this ⊢
        simpa [List.getLast?_cons_cons] using this
    have hpb : p ∈ b :: f b := by rw [hp]; simp
    intro c hc
    have hcm := diff c m hc hm
    have hi := holds_insert hR p m c (f c) (hB c hc) hcm hpm
    simp only [specMail, specStep]
    rw [hlast]
    by_cases hcb : c = b
    · subst hcb
      rw [if_pos rfl]
      have := hi.1 hpb
      rw [← erase_cons_ne c m (f c) hcm, hp, insertAfter_erase_last init p m (by rw [← hp]; exact (hR.1 _ (hB c hc)).1) hpm, ← hp, erase_cons_ne c m (f c) hcm] at this
      exact this
    · rw [if_neg hcb]
      exact hi.2 (fun hpc => hcb (box_unique hR c b p _ _ (hB c hc) (hB b hb) hpc hpb))
  | express b m =>
    obtain ⟨hb, hm⟩ := ho
    have hbm := diff b m hb hm
    obtain ⟨h1, e1, r1⟩ := list_step_refines h A (.push b m) hR
    refine ⟨h1, _, e1, r1, ?_⟩
    have hring := ringOf_eq hR (hB b hb) (x := b) (by simp)
    have hroot : specRoot A b = b := by unfold specRoot; rw [hring]; rfl
    intro c hc
    have hcm := diff c m hc hm
    have hi := holds_insert hR b m c (f c) (hB c hc) hcm hbm
    simp only [specMail, specStep]
    rw [hroot]
    by_cases hcb : c = b
    · subst hcb
      rw [if_pos rfl]
      have := hi.1 (by simp)
      simpa [insertAfter] using this
    · rw [if_neg hcb]
      exact hi.2 (fun hpc => hcb (box_unique hR c b b _ _ (hB c hc) (hB b hb) hpc (by simp)))
  | receive b =>
    obtain ⟨h1, e1, r1⟩ := list_step_refines h A (.pop b) hR
    have hring := ringOf_eq hR (hB b ho) (x := b) (by simp)
    have hnd := (hR.1 _ (hB b ho)).1
    cases hf : f b with
    | nil =>
      have hh : specHead A b = none := by unfold specHead; rw [hring, hf]; rfl
      refine ⟨h1, _, ?_, r1, ?_⟩
      · simp only [specMail, hf, List.head?_nil]
        simp only [specStep, hh] at e1
        exact e1
      · intro c hc
        simp only [specStep, hh, specMail]
        split
        · rename_i e; subst e; rw [hf]; have := hB c hc; rw [hf] at this; exact this
        · exact hB c hc
    | cons m t =>
      have hh : specHead A b = some m := by unfold specHead; rw [hring, hf]; rfl
      have hbm : b ≠ m := by
        rintro rfl
        rw [hf] at hnd
        simp at hnd
      refine ⟨h1, _, ?_, r1, ?_⟩
      · simp only [specMail, hf, List.head?_cons]
        simp only [specStep, hh] at e1
        exact e1
      · intro c hc
        simp only [specStep, hh, specMail]
        by_cases hcb : c = b
        · subst hcb
          rw [if_pos rfl]
          have := holds_remove hR c m (f c) (hB c hc) hbm
          rw [hf] at this ⊢
          simpa using this
        · rw [if_neg hcb]
          have hmc : m ∉ c :: f c := fun hm => hcb (box_unique hR c b m _ _ (hB c hc) (hB b ho) hm (by rw [hf]; simp))
          exact ringOf_specRemove hR m (hB c hc) hmc
  | cancel m =>
    obtain ⟨h1, e1, r1⟩ := list_step_refines h A (.remove m) hR
    refine ⟨h1, _, e1, r1, ?_⟩
    intro c hc
    exact holds_remove hR c m (f c) (hB c hc) (diff c m hc ho)

theorem mails_run (box : Node N → Bool) (os : List (Mail N)) : ∀ (h : Heap N) (A : Rings N) (f : Boxes N), Rep h A → Holds box A f → (∀ o ∈ os, Proper box o) → NotLast f os →
    ∃ h' A', mails h os = some (h', (specMails f os).2) ∧ Rep h' A' ∧ Holds box A' (specMails f os).1 := by
  induction os with
  | nil => exact fun h A f hR hB _ _ => ⟨h, A, rfl, hR, hB⟩
  | cons o os ih =>
    intro h A f hR hB hp hn
    obtain ⟨h1, A1, e1, r1, b1⟩ := mail_step box h A f hR hB o (hp o (by simp)) hn.1
    obtain ⟨h2, A2, e2, r2, b2⟩ := ih h1 A1 _ r1 b1 (fun x hx => hp x (by simp [hx])) hn.2
    refine ⟨h2, A2, ?_, r2, b2⟩
    simp only [mails, e1, Option.bind_some, e2, Option.map_some, specMails]

end Diminuto.DList
