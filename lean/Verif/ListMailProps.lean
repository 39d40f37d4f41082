import Verif.ListMailLemmas

/-!
# Property C183: mailboxes
-/

namespace Diminuto.DList

variable {N : Nat}

/-- C183, in part: with any number of mailboxes and messages, any calls return what they should: a message that is sent moves from where it was to the end of the mailbox, one that is sent express to the beginning, and messages are received in this order.  Afterwards the nodes that follow a mailbox, from one to the next, are its messages, and membership and the question whether a mailbox is empty say the same.  Missing are calls that send a message to the mailbox of which it is the last: `resend_counterexample`. -/
theorem mailboxes_partial (box : Node N → Bool) (os : List (Mail N)) (hp : ∀ o ∈ os, Proper box o) (hn : NotLast (fun _ => []) os) :
    ∃ h, mails (fresh N) os = some (h, (specMails (fun _ => []) os).2) ∧
      ∀ b, box b = true → (∀ i, i ≤ ((specMails (fun _ => []) os).1 b).length → h.next^[i] b = (b :: (specMails (fun _ => []) os).1 b).getD i b) ∧
        h.next^[((specMails (fun _ => []) os).1 b).length + 1] b = b ∧
        isRoot h b = true ∧ (isEmpty h b = true ↔ (specMails (fun _ => []) os).1 b = []) ∧
        ∀ m, m ≠ b → (isMember h b m = true ↔ m ∈ (specMails (fun _ => []) os).1 b) ∧ (areSiblings h b m = true ↔ m ∈ (specMails (fun _ => []) os).1 b) := by
  obtain ⟨h, A, e, r, hB⟩ := mails_run box os (fresh N) (specFresh N) (fun _ => []) (fresh_rep N) (fun b _ => by simp [specFresh]) hp hn
  refine ⟨h, e, ?_⟩
  generalize (specMails (fun _ => []) os).1 = f at hB
  intro b hb
  have hmem := hB b hb
  have hring := r.1 _ hmem
  have hroot : ∀ m, h.root m = b ↔ m ∈ b :: f b := by
    intro m
    constructor
    · intro hm
      have h1 := rep_root r m
      have h2 := ringOf_spec r m
      have h3 : b ∈ ringOf A m := by
        unfold specRoot at h1
        rw [hm] at h1
        cases hq : ringOf A m with
        | nil => rw [hq] at h2; simp at h2
        | cons y t => rw [hq] at h1; simp at h1; rw [h1]; simp
      rw [rep_unique r hmem h2.1 (by simp) h3]
      exact h2.2
    · intro hm
      rw [rep_root r m]
      unfold specRoot
      rw [ringOf_eq r hmem hm]
      rfl
  have path : ∀ (l : List (Node N)) (a c : Node N), Path h a l c → (∀ i, i ≤ l.length → h.next^[i] a = (a :: l).getD i a) ∧ h.next^[l.length + 1] a = c := by
    intro l
    induction l with
    | nil =>
      intro a c hp
      refine ⟨fun i hi => ?_, hp.1⟩
      have : i = 0 := Nat.le_zero.mp hi
      subst this
      rfl
    | cons x l ih =>
      intro a c hp
      obtain ⟨h1, h2⟩ := ih x c hp.2
      refine ⟨fun i hi => ?_, ?_⟩
      · cases i with
        | zero => rfl
        | succ i =>
          rw [Function.iterate_succ_apply, hp.1.1, h1 i (by simpa using hi)]
          have hlt : i < (x :: l).length := hi
          simp [List.getD_eq_getElem?_getD, List.getElem?_eq_getElem hlt]
      · rw [List.length_cons, Function.iterate_succ_apply, hp.1.1, h2]
  have hpath : Path h b (f b) b := hring.2.1
  obtain ⟨p1, p2⟩ := path _ _ _ hpath
  refine ⟨p1, p2, ?_, ?_, ?_⟩
  · unfold isRoot
    rw [decide_eq_true_iff]
    exact ((hroot b).mpr (by simp)).symm
  · unfold isEmpty
    rw [decide_eq_true_iff]
    have hnd := hring.1
    cases hf : f b with
    | nil =>
      rw [hf] at p2
      simp only [iff_true]
      exact p2.symm
    | cons y t =>
      have := p1 1 (by rw [hf]; simp)
      rw [hf] at this hnd
      simp only [Function.iterate_one, List.getD_cons_succ, List.getD_cons_zero] at this
      rw [this]
      constructor
      · intro e
        subst e
        simp at hnd
      · intro e
        cases e
  · intro m hm
    have hb' := (hroot b).mpr (by simp)
    unfold isMember areSiblings
    rw [decide_eq_true_iff, decide_eq_true_iff, hb', eq_comm, hroot m]
    simp [hm]

/-- Two mailboxes, 0 and 1, and three messages: one sent, one sent express, one that changes its mailbox. -/
example : let os : List (Mail 5) := [.send 0 2, .send 0 3, .express 0 4, .send 1 2, .receive 0, .receive 0, .receive 0, .receive 1]
    (∀ o ∈ os, Proper (fun x => x < 2) o) ∧ NotLast (fun _ => []) os ∧ (specMails (fun _ => []) os).2 = [some 2, some 3, some 4, some 2, some 4, some 3, none, some 2] := by
  refine ⟨?_, by simp [NotLast, specMail], by decide⟩
  intro o ho
  simp only [List.mem_cons, List.not_mem_nil, or_false] at ho
  rcases ho with rfl | rfl | rfl | rfl | rfl | rfl | rfl | rfl <;> simp [Proper]

/-- C183, false of a message that is sent to the mailbox of which it is the last: it is removed from it and never received. -/
theorem resend_counterexample : (mails (fresh 2) [.send 0 1, .send 0 1, .receive 0]).map (·.2) = some [some 1, some 1, none] ∧
    (specMails (fun _ : Fin 2 => []) [.send 0 1, .send 0 1, .receive 0]).2 = [some 1, some 1, some 1] := by
  decide

end Diminuto.DList
