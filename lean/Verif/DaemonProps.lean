import Verif.DaemonLemmas

/-!
# The Daemon feature
-/

namespace Diminuto.Daemon

/-- C112.  If the parent succeeds then the daemon has been started, it has no parent but process 1, and the child that is in between is no more, not even as a zombie. -/
theorem daemon_success (c : Setting) (s : State) (h : Reaches c s) (hs : Succeeds c.kind s.parent) : Orphaned s ∧ s.child = .gone := by
  have hi : c.ignored = false := by
    rcases (common h).parent with h' | h' | ⟨-, h'⟩ | h' | ⟨hk, -, h'⟩
    · exact absurd hs (undone (Or.inl h')).1
    · exact absurd hs (undone (Or.inr h')).1
    · exact h'
    · exact absurd h' (fun h' => not_both hs h')
    · rw [h', hk] at hs; simp [Succeeds] at hs
  have := good hi h
  generalize hk : c.kind = k at this hs
  cases this with
  | start => exact absurd hs (undone (Or.inl rfl)).1
  | already h' => subst h'; simp [Succeeds] at hs
  | unforked => exact absurd (fails k) (fun h' => not_both hs h')
  | child => exact absurd hs (undone (Or.inr rfl)).1
  | unreforked => exact absurd hs (undone (Or.inr rfl)).1
  | killed => exact absurd hs (undone (Or.inr rfl)).1
  | failed => exact absurd (fails k) (fun h' => not_both hs h')
  | forked => exact absurd hs (undone (Or.inr rfl)).1
  | exited => exact absurd hs (undone (Or.inr rfl)).1
  | succeeded hg => exact ⟨⟨hg, (by intro h; cases h), (by intro h; cases h)⟩, rfl⟩
  | killed' => exact absurd hs (undone (Or.inr rfl)).1
  | misjudged => exact absurd (fails k) (fun h' => not_both hs h')

/-- C112.  Claimed: if the parent fails then there is no daemon.  Shown here for when `SIGCHLD` is not ignored and the child is not killed. -/
theorem daemon_failure_partial (c : Setting) (hi : c.ignored = false) (s : State) (h : Unkilled c s) (hs : Fails c.kind s.parent) : s.grandchild = .none := by
  have := fine hi h
  generalize hk : c.kind = k at this hs
  cases this with
  | start => rfl
  | already h' => rfl
  | unforked => rfl
  | child => rfl
  | unreforked => rfl
  | failed => rfl
  | forked => exact absurd hs (undone (Or.inr rfl)).2
  | exited => exact absurd hs (undone (Or.inr rfl)).2
  | succeeded hg => exact absurd hs (fun h' => not_both (succeeds k) h')

/-- C112.  What becomes of the parent: that it succeeds, that it fails, or that it is a daemon already. -/
theorem daemon_done (c : Setting) (s : State) (h : Reaches c s) (hd : Done s.parent) : Succeeds c.kind s.parent ∨ Fails c.kind s.parent ∨ (c.kind = .daemon ∧ c.orphan = true ∧ s.parent = .returned 0) := by
  rcases (common h).parent with h' | h' | ⟨h', -⟩ | h' | h'
  · rw [h'] at hd; exact hd.elim
  · rw [h'] at hd; exact hd.elim
  · exact Or.inl h'
  · exact Or.inr (Or.inl h')
  · exact Or.inr (Or.inr h')

/-- C112.  To the grandchild the functions return zero, and `diminuto_system` does not return to it at all. -/
theorem daemon_grandchild (c : Setting) (s : State) (h : Reaches c s) (v : Int) (hs : s.grandchild = .returned v) : v = 0 ∧ c.kind ≠ .system := by
  rcases (common h).grandchild with h' | h' | ⟨hk, h'⟩ | ⟨-, h' | h'⟩
  · rw [h'] at hs; cases hs
  · rw [h'] at hs; cases hs
  · rw [h'] at hs; injection hs with hs; exact ⟨hs.symm, hk⟩
  · rw [h'] at hs; cases hs
  · rw [h'] at hs; cases hs

/-- C112.  Claimed: `diminuto_daemon` does not return to the parent.  Shown here for a parent that is not itself a child of process 1. -/
theorem daemon_exits_partial (c : Setting) (hk : c.kind = .daemon) (ho : c.orphan = false) (s : State) (h : Reaches c s) (v : Int) : s.parent ≠ .returned v := by
  intro hs
  rcases (common h).parent with h' | h' | ⟨h', -⟩ | h' | ⟨-, h', -⟩
  · rw [h'] at hs; cases hs
  · rw [h'] at hs; cases hs
  · rw [hk, hs] at h'; simp [Succeeds] at h'
  · rw [hk, hs] at h'; simp [Fails] at h'
  · rw [ho] at h'; cases h'

/-- C112.  Every step but an interrupted wait leaves less to do, so that the processes come to an end. -/
theorem daemon_ends (c : Setting) (s t : State) (h : Step c s t) : t = s ∨ t.work < s.work := by
  have hf := failure_work c.kind
  have he := ended_work c
  have p1 : Parent.start.work = 20 := rfl
  have p2 : Parent.waiting.work = 1 := rfl
  have p3 : (Parent.returned 0).work = 0 := rfl
  have c1 : Child.start.work = 10 := rfl
  have c2 : Child.forked.work = 5 := rfl
  have c3 : Child.gone.work = 0 := rfl
  have c4 : Child.none.work = 0 := rfl
  have g1 : Grandchild.start.work = 1 := rfl
  have g2 : Grandchild.none.work = 0 := rfl
  have g3 : (Grandchild.returned 0).work = 0 := rfl
  have g4 : Grandchild.executing.work = 0 := rfl
  have g5 : (Grandchild.exited 1).work = 0 := rfl
  cases h with
  | already g h1 h2 => right; simp only [State.work]; omega
  | unforked g h1 => right; simp only [State.work]; omega
  | fork g h1 => right; simp only [State.work]; omega
  | interrupted x g => exact Or.inl rfl
  | reap status g => right; have hz : (Child.zombie status).work = 2 := rfl; simp only [State.work, judge_work]; omega
  | childless g => right; simp only [State.work]; omega
  | unreforked p => right; have := he (.exited 1); simp only [State.work]; omega
  | refork p => right; simp only [State.work]; omega
  | exit p g => right; have := he (.exited 0); simp only [State.work]; omega
  | killed p g => right; have := he .signaled; simp only [State.work]; omega
  | killed' p g => right; have := he .signaled; simp only [State.work]; omega
  | detach p x h1 => right; simp only [State.work]; omega
  | exec p x h1 => right; simp only [State.work]; omega
  | unexec p x h1 => right; simp only [State.work]; omega

/-- C112.  And it is not before all of them are done that they do. -/
theorem daemon_proceeds (c : Setting) (s : State) (h : Reaches c s) : (∃ t, Step c s t ∧ t ≠ s) ∨ (Done s.parent ∧ s.child ≠ .start ∧ s.child ≠ .forked ∧ s.grandchild ≠ .start) := by
  have hc := common h
  obtain ⟨p, x, g⟩ := s
  by_cases hg : g = .start
  · subst hg
    by_cases hk : c.kind = .system
    · exact Or.inl ⟨_, .exec p x hk, (by intro h; cases h)⟩
    · exact Or.inl ⟨_, .detach p x hk, (by intro h; cases h)⟩
  · cases x with
    | start =>
      have := hc.fresh rfl
      simp only at this; subst this
      exact Or.inl ⟨_, .refork p, (by intro h; cases h)⟩
    | forked =>
      refine Or.inl ⟨_, .exit p g, ?_⟩
      intro h
      injection h with _ h _
      unfold ended at h
      cases hi : c.ignored <;> simp [hi] at h
    | none =>
      cases p with
      | start =>
        by_cases hk : c.kind = .daemon ∧ c.orphan = true
        · exact Or.inl ⟨_, .already g hk.1 hk.2, (by intro h; cases h)⟩
        · exact Or.inl ⟨_, .fork g hk, (by intro h; cases h)⟩
      | waiting => exact absurd rfl (hc.none rfl).1
      | returned v => exact Or.inr ⟨trivial, (by intro h; cases h), (by intro h; cases h), hg⟩
      | exited v => exact Or.inr ⟨trivial, (by intro h; cases h), (by intro h; cases h), hg⟩
    | zombie status =>
      cases p with
      | start => exact absurd (hc.start rfl) (by intro h; cases h)
      | waiting => exact Or.inl ⟨_, .reap status g, (by intro h; injection h with _ h; cases h)⟩
      | returned v => exact Or.inr ⟨trivial, (by intro h; cases h), (by intro h; cases h), hg⟩
      | exited v => exact Or.inr ⟨trivial, (by intro h; cases h), (by intro h; cases h), hg⟩
    | gone =>
      cases p with
      | start => exact absurd (hc.start rfl) (by intro h; cases h)
      | waiting => exact Or.inl ⟨_, .childless g, (by intro h; injection h with h; exact absurd h (failure_ne _).2)⟩
      | returned v => exact Or.inr ⟨trivial, (by intro h; cases h), (by intro h; cases h), hg⟩
      | exited v => exact Or.inr ⟨trivial, (by intro h; cases h), (by intro h; cases h), hg⟩

/-- A service that is started. -/
theorem service_started : Unkilled ⟨.service, false, false⟩ ⟨.returned 1, .gone, .returned 0⟩ ∧ Reaches ⟨.service, false, false⟩ ⟨.returned 1, .gone, .returned 0⟩ := by
  have h1 : Step ⟨.service, false, false⟩ initial ⟨.waiting, .start, .none⟩ := .fork .none (by decide)
  have h2 : Step ⟨.service, false, false⟩ ⟨.waiting, .start, .none⟩ ⟨.waiting, .forked, .start⟩ := .refork .waiting
  have h3 : Step ⟨.service, false, false⟩ ⟨.waiting, .forked, .start⟩ ⟨.waiting, .zombie (.exited 0), .start⟩ := .exit .waiting .start
  have h4 : Step ⟨.service, false, false⟩ ⟨.waiting, .zombie (.exited 0), .start⟩ ⟨.returned 1, .gone, .start⟩ := .reap (.exited 0) .start
  have h5 : Step ⟨.service, false, false⟩ ⟨.returned 1, .gone, .start⟩ ⟨.returned 1, .gone, .returned 0⟩ := .detach _ _ (by decide)
  refine ⟨.step (.step (.step (.step (.step .initial h1 ?_) h2 ?_) h3 ?_) h4 ?_) h5 ?_, .step (.step (.step (.step (.step .initial h1) h2) h3) h4) h5⟩ <;> intro x h <;> cases h
  decide

example : ∃ s, Reaches ⟨.service, false, false⟩ s ∧ Succeeds .service s.parent ∧ s.grandchild = .returned 0 := ⟨_, service_started.2, ⟨1, by decide, rfl⟩, rfl⟩

/-- A daemon that cannot be started, because the child cannot fork. -/
example : ∃ s, Unkilled ⟨.daemon, false, false⟩ s ∧ Fails .daemon s.parent := by
  have h1 : Step ⟨.daemon, false, false⟩ initial ⟨.waiting, .start, .none⟩ := .fork .none (by decide)
  have h2 : Step ⟨.daemon, false, false⟩ ⟨.waiting, .start, .none⟩ ⟨.waiting, .zombie (.exited 1), .none⟩ := .unreforked .waiting
  have h3 : Step ⟨.daemon, false, false⟩ ⟨.waiting, .zombie (.exited 1), .none⟩ ⟨.exited 1, .gone, .none⟩ := .reap (.exited 1) .none
  refine ⟨_, .step (.step (.step .initial h1 ?_) h2 ?_) h3 ?_, rfl⟩ <;> intro x h <;> cases h
  decide

/-- C112, refuted.  With `SIGCHLD` ignored the parent fails in spite of the daemon that has been started. -/
theorem daemon_ignored_counterexample : Reaches ⟨.service, true, false⟩ ⟨.returned (-1), .gone, .returned 0⟩ := by
  have h1 : Step ⟨.service, true, false⟩ initial ⟨.waiting, .start, .none⟩ := .fork .none (by decide)
  have h2 : Step ⟨.service, true, false⟩ ⟨.waiting, .start, .none⟩ ⟨.waiting, .forked, .start⟩ := .refork .waiting
  have h3 : Step ⟨.service, true, false⟩ ⟨.waiting, .forked, .start⟩ ⟨.waiting, .gone, .start⟩ := .exit .waiting .start
  have h4 : Step ⟨.service, true, false⟩ ⟨.waiting, .gone, .start⟩ ⟨.returned (-1), .gone, .start⟩ := .childless .start
  have h5 : Step ⟨.service, true, false⟩ ⟨.returned (-1), .gone, .start⟩ ⟨.returned (-1), .gone, .returned 0⟩ := .detach _ _ (by decide)
  exact .step (.step (.step (.step (.step .initial h1) h2) h3) h4) h5

/-- C112, refuted.  And it never succeeds. -/
theorem daemon_ignored_never (c : Setting) (hi : c.ignored = true) (s : State) (h : Reaches c s) : ¬ Succeeds c.kind s.parent := by
  intro hs
  rcases (common h).parent with h' | h' | ⟨-, h'⟩ | h' | ⟨hk, -, h'⟩
  · exact absurd hs (undone (Or.inl h')).1
  · exact absurd hs (undone (Or.inr h')).1
  · rw [hi] at h'; cases h'
  · exact not_both hs h'
  · rw [h', hk] at hs; simp [Succeeds] at hs

/-- C112, refuted.  If the child is killed after it has forked then the parent fails in spite of the daemon. -/
theorem daemon_killed_counterexample : Reaches ⟨.service, false, false⟩ ⟨.returned (-1), .gone, .start⟩ := by
  have h1 : Step ⟨.service, false, false⟩ initial ⟨.waiting, .start, .none⟩ := .fork .none (by decide)
  have h2 : Step ⟨.service, false, false⟩ ⟨.waiting, .start, .none⟩ ⟨.waiting, .forked, .start⟩ := .refork .waiting
  have h3 : Step ⟨.service, false, false⟩ ⟨.waiting, .forked, .start⟩ ⟨.waiting, .zombie .signaled, .start⟩ := .killed' .waiting .start
  have h4 : Step ⟨.service, false, false⟩ ⟨.waiting, .zombie .signaled, .start⟩ ⟨.returned (-1), .gone, .start⟩ := .reap .signaled .start
  exact .step (.step (.step (.step .initial h1) h2) h3) h4

/-- C112, refuted.  "The parent always exits": it does not if it is a child of process 1, as is the case for what is started in a container, and no daemon is started. -/
theorem daemon_exits_counterexample : Reaches ⟨.daemon, false, true⟩ ⟨.returned 0, .none, .none⟩ := .step .initial (.already .none rfl rfl)

/-- C112, refuted.  The function may return to the daemon before it has lost its parent, so that it is not yet a child of process 1. -/
theorem daemon_orphan_counterexample : ∃ s, Reaches ⟨.daemon, false, false⟩ s ∧ s.grandchild = .returned 0 ∧ ¬ Orphaned s := by
  have h1 : Step ⟨.daemon, false, false⟩ initial ⟨.waiting, .start, .none⟩ := .fork .none (by decide)
  have h2 : Step ⟨.daemon, false, false⟩ ⟨.waiting, .start, .none⟩ ⟨.waiting, .forked, .start⟩ := .refork .waiting
  have h3 : Step ⟨.daemon, false, false⟩ ⟨.waiting, .forked, .start⟩ ⟨.waiting, .forked, .returned 0⟩ := .detach _ _ (by decide)
  refine ⟨_, .step (.step (.step .initial h1) h2) h3, rfl, ?_⟩
  rintro ⟨-, -, h⟩; exact h rfl

end Diminuto.Daemon
