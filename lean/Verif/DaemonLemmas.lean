import Verif.DaemonSpec

/-!
# Lemmas on the Daemon feature
-/

namespace Diminuto.Daemon

/-- What holds of all the states that the three come to, if `SIGCHLD` is not ignored. -/
inductive Good (k : Kind) : State → Prop where
  | start : Good k ⟨.start, .none, .none⟩
  | already : k = .daemon → Good k ⟨.returned 0, .none, .none⟩
  | unforked : Good k ⟨failure k, .none, .none⟩
  | child : Good k ⟨.waiting, .start, .none⟩
  | unreforked : Good k ⟨.waiting, .zombie (.exited 1), .none⟩
  | killed : Good k ⟨.waiting, .zombie .signaled, .none⟩
  | failed : Good k ⟨failure k, .gone, .none⟩
  | forked {g : Grandchild} : g ≠ .none → Good k ⟨.waiting, .forked, g⟩
  | exited {g : Grandchild} : g ≠ .none → Good k ⟨.waiting, .zombie (.exited 0), g⟩
  | succeeded {g : Grandchild} : g ≠ .none → Good k ⟨success k, .gone, g⟩
  | killed' {g : Grandchild} : g ≠ .none → Good k ⟨.waiting, .zombie .signaled, g⟩
  | misjudged {g : Grandchild} : g ≠ .none → Good k ⟨failure k, .gone, g⟩

theorem fails (k : Kind) : Fails k (failure k) := by
  cases k
  · rfl
  · exact ⟨-1, by decide, rfl⟩
  · exact ⟨-1, by decide, rfl⟩

theorem succeeds (k : Kind) : Succeeds k (success k) := by
  cases k
  · rfl
  · exact ⟨1, by decide, rfl⟩
  · rfl

theorem not_both {k : Kind} {p : Parent} (h : Succeeds k p) (h' : Fails k p) : False := by
  cases k
  · simp only [Succeeds, Fails] at h h'; rw [h] at h'; cases h'
  · obtain ⟨v, hv, rfl⟩ := h
    obtain ⟨u, hu, he⟩ := h'
    injection he with he; omega
  · simp only [Succeeds] at h
    obtain ⟨u, hu, he⟩ := h'
    rw [h] at he
    injection he with he; omega

theorem undone {k : Kind} {p : Parent} (h : p = .start ∨ p = .waiting) : ¬ Succeeds k p ∧ ¬ Fails k p := by
  rcases h with rfl | rfl <;> cases k <;> simp [Succeeds, Fails]

theorem failure_ne (k : Kind) : failure k ≠ .start ∧ failure k ≠ .waiting := by cases k <;> decide
theorem success_ne (k : Kind) : success k ≠ .start ∧ success k ≠ .waiting := by cases k <;> decide

theorem good_step {c : Setting} (hi : c.ignored = false) {s t : State} (h : Good c.kind s) (st : Step c s t) : Good c.kind t := by
  have ended_eq : ∀ x, ended c x = .zombie x := by intro x; simp [ended, hi]
  generalize hk : c.kind = k at h
  have hf := failure_ne k
  have hs := success_ne k
  cases st with
  | already g h1 h2 =>
    rw [hk] at h1
    generalize hp : Parent.start = p at h
    cases h <;> first | exact .already h1 | (exact absurd hp.symm hf.1) | (cases hp)
  | unforked g h1 =>
    rw [hk]
    generalize hp : Parent.start = p at h
    cases h <;> first | exact .unforked | (exact absurd hp.symm hf.1) | (cases hp)
  | fork g h1 =>
    generalize hp : Parent.start = p at h
    cases h <;> first | exact .child | (exact absurd hp.symm hf.1) | (cases hp)
  | interrupted x g => exact h
  | reap status g =>
    rw [hk]
    generalize hp : Parent.waiting = p at h
    cases h <;> first | exact .failed | (exact .succeeded (by assumption)) | (exact .misjudged (by assumption))
  | childless g =>
    generalize hp : Parent.waiting = p at h
    cases h <;> first | (exact absurd hp.symm hf.2) | (exact absurd hp.symm hs.2)
  | unreforked p =>
    rw [ended_eq]
    cases h; exact .unreforked
  | refork p =>
    cases h; exact .forked (by decide)
  | exit p g =>
    rw [ended_eq]
    cases h with
    | forked h => exact .exited h
  | killed p g =>
    rw [ended_eq]
    cases h; exact .killed
  | killed' p g =>
    rw [ended_eq]
    cases h with
    | forked h => exact .killed' h
  | detach p x h1 =>
    cases h with
    | forked => exact .forked (by decide)
    | exited => exact .exited (by decide)
    | succeeded => exact .succeeded (by decide)
    | killed' => exact .killed' (by decide)
    | misjudged => exact .misjudged (by decide)
  | exec p x h1 =>
    cases h with
    | forked => exact .forked (by decide)
    | exited => exact .exited (by decide)
    | succeeded => exact .succeeded (by decide)
    | killed' => exact .killed' (by decide)
    | misjudged => exact .misjudged (by decide)
  | unexec p x h1 =>
    cases h with
    | forked => exact .forked (by decide)
    | exited => exact .exited (by decide)
    | succeeded => exact .succeeded (by decide)
    | killed' => exact .killed' (by decide)
    | misjudged => exact .misjudged (by decide)

theorem good {c : Setting} (hi : c.ignored = false) {s : State} (h : Reaches c s) : Good c.kind s := by
  induction h with
  | initial => exact .start
  | step _ st ih => exact good_step hi ih st

/-- What holds of them if the child is not killed. -/
inductive Fine (k : Kind) : State → Prop where
  | start : Fine k ⟨.start, .none, .none⟩
  | already : k = .daemon → Fine k ⟨.returned 0, .none, .none⟩
  | unforked : Fine k ⟨failure k, .none, .none⟩
  | child : Fine k ⟨.waiting, .start, .none⟩
  | unreforked : Fine k ⟨.waiting, .zombie (.exited 1), .none⟩
  | failed : Fine k ⟨failure k, .gone, .none⟩
  | forked {g : Grandchild} : g ≠ .none → Fine k ⟨.waiting, .forked, g⟩
  | exited {g : Grandchild} : g ≠ .none → Fine k ⟨.waiting, .zombie (.exited 0), g⟩
  | succeeded {g : Grandchild} : g ≠ .none → Fine k ⟨success k, .gone, g⟩

theorem fine_step {c : Setting} (hi : c.ignored = false) {s t : State} (h : Fine c.kind s) (st : Step c s t) (hq : ∀ status, t.child = .zombie status → status ≠ .signaled) : Fine c.kind t := by
  have ended_eq : ∀ x, ended c x = .zombie x := by intro x; simp [ended, hi]
  generalize hk : c.kind = k at h
  have hf := failure_ne k
  have hs := success_ne k
  cases st with
  | already g h1 h2 =>
    rw [hk] at h1
    generalize hp : Parent.start = p at h
    cases h <;> first | exact .already h1 | (exact absurd hp.symm hf.1) | (cases hp)
  | unforked g h1 =>
    rw [hk]
    generalize hp : Parent.start = p at h
    cases h <;> first | exact .unforked | (exact absurd hp.symm hf.1) | (cases hp)
  | fork g h1 =>
    generalize hp : Parent.start = p at h
    cases h <;> first | exact .child | (exact absurd hp.symm hf.1) | (cases hp)
  | interrupted x g => exact h
  | reap status g =>
    rw [hk]
    generalize hp : Parent.waiting = p at h
    cases h <;> first | exact .failed | (exact .succeeded (by assumption))
  | childless g =>
    generalize hp : Parent.waiting = p at h
    cases h <;> first | (exact absurd hp.symm hf.2) | (exact absurd hp.symm hs.2)
  | unreforked p =>
    rw [ended_eq]
    cases h; exact .unreforked
  | refork p =>
    cases h; exact .forked (by decide)
  | exit p g =>
    rw [ended_eq]
    cases h with
    | forked h => exact .exited h
  | killed p g =>
    rw [ended_eq] at hq
    exact absurd rfl (hq _ rfl)
  | killed' p g =>
    rw [ended_eq] at hq
    exact absurd rfl (hq _ rfl)
  | detach p x h1 =>
    cases h with
    | forked => exact .forked (by decide)
    | exited => exact .exited (by decide)
    | succeeded => exact .succeeded (by decide)
  | exec p x h1 =>
    cases h with
    | forked => exact .forked (by decide)
    | exited => exact .exited (by decide)
    | succeeded => exact .succeeded (by decide)
  | unexec p x h1 =>
    cases h with
    | forked => exact .forked (by decide)
    | exited => exact .exited (by decide)
    | succeeded => exact .succeeded (by decide)

theorem fine {c : Setting} (hi : c.ignored = false) {s : State} (h : Unkilled c s) : Fine c.kind s := by
  induction h with
  | initial => exact .start
  | step _ st hq ih => exact fine_step hi ih st hq

/-- What holds of them whether or not `SIGCHLD` is ignored. -/
structure Common (c : Setting) (s : State) : Prop where
  parent : s.parent = .start ∨ s.parent = .waiting ∨ (Succeeds c.kind s.parent ∧ c.ignored = false) ∨ Fails c.kind s.parent ∨ (c.kind = .daemon ∧ c.orphan = true ∧ s.parent = .returned 0)
  start : s.parent = .start → s.child = .none
  none : s.child = .none → s.parent ≠ .waiting ∧ s.grandchild = .none
  zombie : ∀ x, s.child = .zombie x → c.ignored = false
  fresh : s.child = .start → s.grandchild = .none
  grandchild : s.grandchild = .none ∨ s.grandchild = .start ∨ (c.kind ≠ .system ∧ s.grandchild = .returned 0) ∨ (c.kind = .system ∧ (s.grandchild = .executing ∨ s.grandchild = .exited 1))

theorem ended_common {c : Setting} {p : Parent} {g : Grandchild} {x : Child} (status : Status) (h : Common c ⟨p, x, g⟩) (hx : x ≠ .none) : Common c ⟨p, ended c status, g⟩ := by
  have hp : p ≠ .start := fun h' => hx (h.start h')
  unfold ended
  cases hi : c.ignored with
  | true =>
    refine ⟨h.parent, fun h' => absurd h' hp, ?_, ?_, ?_, h.grandchild⟩
    · intro h'; simp at h'
    · intro x h'; simp at h'
    · intro h'; simp at h'
  | false =>
    refine ⟨h.parent, fun h' => absurd h' hp, ?_, ?_, ?_, h.grandchild⟩
    · intro h'; simp at h'
    · intro x _; exact hi
    · intro h'; simp at h'

theorem judged (k : Kind) (x : Status) : Succeeds k (judge k x) ∨ Fails k (judge k x) := by
  cases x with
  | exited code =>
    simp only [judge]
    split
    · exact Or.inr (fails k)
    · exact Or.inl (succeeds k)
  | signaled => exact Or.inr (fails k)

theorem judge_ne (k : Kind) (x : Status) : judge k x ≠ .start := by
  cases x with
  | exited code =>
    simp only [judge]
    split
    · exact (failure_ne k).1
    · exact (success_ne k).1
  | signaled => exact (failure_ne k).1

theorem common_step {c : Setting} {s t : State} (h : Common c s) (st : Step c s t) : Common c t := by
  cases st with
  | already g h1 h2 =>
    exact ⟨by simp [h1, h2], (by intro h'; cases h'), (by intro _; exact ⟨(by intro h'; cases h'), (h.none rfl).2⟩), (by intro x h'; cases h'), (by intro h'; cases h'), h.grandchild⟩
  | unforked g h1 =>
    exact ⟨by simp [fails], (by intro h'; rfl), (by intro _; exact ⟨(failure_ne _).2, (h.none rfl).2⟩), (by intro x h'; cases h'), (by intro h'; cases h'), h.grandchild⟩
  | fork g h1 =>
    exact ⟨by simp, (by intro h'; cases h'), (by intro h'; cases h'), (by intro x h'; cases h'), (by intro _; exact (h.none rfl).2), h.grandchild⟩
  | interrupted x g => exact h
  | reap status g =>
    refine ⟨?_, (by intro h'; exact absurd h' (judge_ne _ _)), (by intro h'; cases h'), (by intro x h'; cases h'), (by intro h'; cases h'), h.grandchild⟩
    rcases judged c.kind status with h' | h'
    · exact Or.inr (Or.inr (Or.inl ⟨h', h.zombie _ rfl⟩))
    · exact Or.inr (Or.inr (Or.inr (Or.inl h')))
  | childless g =>
    exact ⟨Or.inr (Or.inr (Or.inr (Or.inl (fails _)))), (by intro h'; exact absurd h' (failure_ne _).1), (by intro h'; cases h'), (by intro x h'; cases h'), (by intro h'; cases h'), h.grandchild⟩
  | unreforked p => exact ended_common _ h (by decide)
  | refork p =>
    exact ⟨h.parent, (by intro h'; exact absurd (h.start h') (by intro h; cases h)), (by intro h'; cases h'), (by intro x h'; cases h'), (by intro h'; cases h'), Or.inr (Or.inl rfl)⟩
  | exit p g => exact ended_common _ h (by decide)
  | killed p g => exact ended_common _ h (by decide)
  | killed' p g => exact ended_common _ h (by decide)
  | detach p x h1 =>
    exact ⟨h.parent, h.start, (by intro h'; exact absurd (h.none h').2 (by intro h; cases h)), h.zombie, (by intro h'; exact absurd (h.fresh h') (by intro h; cases h)), Or.inr (Or.inr (Or.inl ⟨h1, rfl⟩))⟩
  | exec p x h1 =>
    exact ⟨h.parent, h.start, (by intro h'; exact absurd (h.none h').2 (by intro h; cases h)), h.zombie, (by intro h'; exact absurd (h.fresh h') (by intro h; cases h)), Or.inr (Or.inr (Or.inr ⟨h1, Or.inl rfl⟩))⟩
  | unexec p x h1 =>
    exact ⟨h.parent, h.start, (by intro h'; exact absurd (h.none h').2 (by intro h; cases h)), h.zombie, (by intro h'; exact absurd (h.fresh h') (by intro h; cases h)), Or.inr (Or.inr (Or.inr ⟨h1, Or.inr rfl⟩))⟩

theorem common {c : Setting} {s : State} (h : Reaches c s) : Common c s := by
  induction h with
  | initial =>
    exact ⟨Or.inl rfl, (by intro _; rfl), (by intro _; exact ⟨(by intro h'; cases h'), rfl⟩), (by intro x h'; cases h'), (by intro h'; cases h'), Or.inl rfl⟩
  | step _ st ih => exact common_step ih st

theorem failure_work (k : Kind) : (failure k).work = 0 := by cases k <;> rfl

theorem success_work (k : Kind) : (success k).work = 0 := by cases k <;> rfl

theorem judge_work (k : Kind) (x : Status) : (judge k x).work = 0 := by
  cases x with
  | exited code =>
    simp only [judge]
    split
    · exact failure_work k
    · exact success_work k
  | signaled => exact failure_work k

theorem ended_work (c : Setting) (x : Status) : (ended c x).work ≤ 2 := by
  unfold ended; cases c.ignored <;> simp [Child.work]

end Diminuto.Daemon
