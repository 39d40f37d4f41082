import Verif.TimerLemmas

/-!
# Property C52: stopping a timer
-/

namespace Diminuto.Timer

/-- C52 (partial: executions that keep to `Apart`, see the counterexamples): when stop returns success, and from then on whatever happens
until start is called, the function is not being executed. -/
theorem timer_stop_partial (periodic : Bool) (es : List Event) (s : State) (h : Run periodic es s) (t : Nat)
    (ht : Succeeds s t) (es' : List Event) (s' : State) (hs : run s (.settime t :: es') = some s')
    (he : ∀ e ∈ es', ∀ u, e ≠ .start u) : ¬ Calling s' := by
  have hi := run_inv h
  have hq : Quiet s := by
    have := hi.succ t ht
    refine ⟨by rw [this]; simp, ?_⟩
    intro p hp
    exact hi.run p hp this
  rintro ⟨p, hp⟩
  refine (run_quiet hq _ ?_ hs).2 p hp
  intro e hmem
  rcases List.mem_cons.1 hmem with rfl | hmem
  · intro u; simp
  · exact he e hmem

/-- C52: before the first start the function is not executed. -/
theorem timer_not_started (periodic : Bool) (es : List Event) (s : State) (h : run (init periodic) es = some s)
    (he : ∀ e ∈ es, ∀ t, e ≠ .start t) : ¬ Calling s := by
  rintro ⟨p, hp⟩
  exact (run_quiet (s := init periodic) ⟨by simp [init], by simp [init]⟩ es he h).2 p hp

/-- C52 (partial, as above): calls of the function do not overlap, and while one is in progress the state is not idle. -/
theorem timer_state_partial (periodic : Bool) (es : List Event) (s : State) (h : Run periodic es s) :
    (Calling s → s.phase ≠ .idle) ∧ ∀ p q, s.proxy p = .running → s.proxy q = .running → p = q :=
  ⟨fun ⟨p, hp⟩ => (run_inv h).run p hp, fun p q hp hq => (run_inv h).one p q (.inl hp) (.inl hq)⟩

/-- C52 (partial, as above): a stop that waits can always still succeed, without another start or stop. -/
theorem timer_stop_can_finish_partial (periodic : Bool) (es : List Event) (s : State) (h : Run periodic es s) (t : Nat)
    (ht : s.app t = .waiting) (n : Nat) (hn : s.proxy n = .none) :
    ∃ es' s', run s es' = some s' ∧ Succeeds s' t ∧ (∀ e ∈ es', ∀ u, e ≠ .start u ∧ e ≠ .stop u) := by
  have hi := run_inv h
  have harm : s.phase ≠ .arm := hi.busy t (by rw [ht]; simp)
  -- from the second critical section on
  have fin : ∀ s1 : State, s1.app t = .waiting → s1.phase ≠ .arm → ∀ p, s1.proxy p = .leaving →
      ∃ s2, run s1 [.leave p, .wake t] = some s2 ∧ Succeeds s2 t := by
    intro s1 h1 h2 p h3
    have hidle : (if s1.periodic then (if s1.phase = .disarm then Phase.idle else s1.phase)
                 else (if s1.phase ≠ .idle then .idle else s1.phase)) = .idle := by
      cases hp : s1.phase <;> cases s1.periodic <;> simp_all
    refine ⟨{ s1 with proxy := upd s1.proxy p .done, phase := .idle, app := upd s1.app t (.settime true) }, ?_, upd_same _ _ _⟩
    simp only [run, step]
    rw [if_pos h3]
    simp only [Option.bind_some]
    rw [if_pos ⟨h1, hidle⟩, hidle]
    rfl
  have fin2 : ∀ s1 : State, s1.app t = .waiting → s1.phase ≠ .arm → ∀ p, s1.proxy p = .created →
      ∃ s2, run s1 [.enter p, .leave p, .wake t] = some s2 ∧ Succeeds s2 t := by
    intro s1 h1 h2 p h3
    obtain ⟨s2, h4, h5⟩ := fin { s1 with proxy := upd s1.proxy p .leaving } h1 h2 p (upd_same _ _ _)
    refine ⟨s2, ?_, h5⟩
    rw [← h4, run, step, if_pos h3, if_neg h2]
    rfl
  rcases hi.served t ht with hph | harmed | ⟨p, hp | hp | hp⟩
  · refine ⟨[.wake t], { s with app := upd s.app t (.settime true) }, ?_, upd_same _ _ _, by simp⟩
    simp only [run, step]
    rw [if_pos ⟨ht, hph⟩]
    rfl
  · obtain ⟨s2, h4, h5⟩ := fin2 { s with armed := s.periodic, proxy := upd s.proxy n .created } ht harm n (upd_same _ _ _)
    refine ⟨[.expire n, .enter n, .leave n, .wake t], s2, ?_, h5, by simp⟩
    rw [← h4, run, step, if_pos ⟨harmed, hn⟩]
    rfl
  · obtain ⟨s2, h4, h5⟩ := fin2 s ht harm p hp
    exact ⟨_, s2, h4, h5, by simp⟩
  · obtain ⟨s2, h4, h5⟩ := fin { s with proxy := upd s.proxy p .leaving } ht harm p (upd_same _ _ _)
    refine ⟨[.ret p, .leave p, .wake t], s2, ?_, h5, by simp⟩
    rw [← h4, run, step, if_pos hp]
    rfl
  · obtain ⟨s2, h4, h5⟩ := fin s ht harm p hp
    exact ⟨_, s2, h4, h5, by simp⟩

/-- C52 is false for the code: if a call of the function of a periodic timer takes longer than the period, the proxy of the next expiration
tells stop that the timer has stopped. -/
theorem timer_overlap_counterexample :
    ∃ s s', run (init true) [.start 0, .expire 1, .enter 1, .expire 2, .stop 0, .enter 2, .leave 2, .wake 0] = some s ∧
      Succeeds s 0 ∧ run s [.settime 0] = some s' ∧ Calling s' := by
  exact ⟨_, _, rfl, rfl, rfl, 1, rfl⟩

/-- C52 is false for the code: a second stop after one that has timed out returns success at once. -/
theorem timer_timeout_counterexample :
    ∃ s s', run (init false) [.start 0, .expire 1, .enter 1, .stop 0, .timeout 0, .settime 0, .stop 0] = some s ∧
      Succeeds s 0 ∧ run s [.settime 0] = some s' ∧ Calling s' := by
  exact ⟨_, _, rfl, rfl, rfl, 1, rfl⟩

/-- C52 is false for the code: a second thread that calls stop while one waits gets success at once. -/
theorem timer_two_stops_counterexample :
    ∃ s s', run (init false) [.start 0, .expire 1, .enter 1, .stop 0, .stop 3] = some s ∧
      Succeeds s 3 ∧ run s [.settime 3] = some s' ∧ Calling s' := by
  exact ⟨_, _, rfl, rfl, rfl, 1, rfl⟩

/-- C52 is false for the code: a function that stops its own one-shot timer waits for itself: whatever happens, while the
function does not return its stop never succeeds, but times out. -/
theorem timer_self_counterexample (p t : Nat) :
    ∃ s, run (init false) [.start t, .expire p, .enter p, .stop t] = some s ∧ s.app t = .waiting ∧
      ∀ es s', run s es = some s' → (∀ e ∈ es, e ≠ .ret p ∧ e ≠ .stop t ∧ ∀ u, e ≠ .start u) → ¬ Succeeds s' t := by
  refine ⟨⟨false, .disarm, false, upd (upd (fun _ => .none) p .created) p .running, upd (fun _ => .idle) t .waiting⟩,
    by simp [run, step, init, upd_same], by simp [upd_same], ?_⟩
  intro es s' h he
  suffices ∀ s, Stuck p t s → run s es = some s' → Stuck p t s' from
    (this _ ⟨rfl, rfl, upd_same _ _ _, by intro q hq; simp [upd, hq], by simp [upd_same]⟩ h).2.2.2.2
  clear h
  induction es with
  | nil =>
    intro s hs h
    simp only [run, Option.some.injEq] at h
    subst h
    exact hs
  | cons e es ih =>
    intro s hs h
    simp only [run, Option.bind_eq_some_iff] at h
    obtain ⟨s1, h1, h2⟩ := h
    obtain ⟨e1, e2, e3⟩ := he e (by simp)
    exact ih (fun x hx => he x (by simp [hx])) s1 (step_stuck hs e e1 e3 e2 h1) h2

/-- A one-shot timer that is started again by its function does not call it a second time: when the first call is done, the state
is set to idle. -/
theorem timer_restart_counterexample :
    ∃ s, run (init false) [.start 0, .expire 1, .enter 1, .start 0, .ret 1, .leave 1, .expire 2] = some s ∧
      s.phase = .idle ∧ ∀ es s', run s es = some s' → (∀ e ∈ es, ∀ u, e ≠ .start u) → ¬ Calling s' := by
  refine ⟨_, rfl, rfl, ?_⟩
  rintro es s' h he ⟨p, hp⟩
  refine (run_quiet ⟨?_, ?_⟩ es he h).2 p hp
  · simp [init]
  · intro q
    simp only [init, upd]
    repeat' split
    all_goals simp

/-- An execution that keeps to `Apart`. -/
example : ∃ s, Run true [.start 0, .expire 1, .enter 1, .stop 0, .ret 1, .leave 1, .wake 0] s ∧ Succeeds s 0 := by
  refine ⟨_, ((((((Run.nil.snoc (e := .start 0) (fun _ => rfl) rfl).snoc (e := .expire 1) trivial rfl).snoc
    (e := .enter 1) ?_ rfl).snoc (e := .stop 0) (by simp [Apart]) rfl).snoc (e := .ret 1) trivial rfl).snoc
    (e := .leave 1) trivial rfl).snoc (e := .wake 0) trivial rfl, rfl⟩
  intro q hq
  simp [init, upd, hq]

end Diminuto.Timer
