import Verif.ThreadLemmas3

/-!
# Properties: the thread object
-/

namespace Diminuto.Thread

/-- An execution that comes from `init` and has only the callers in it that are asked for. -/
theorem reach {ls : List Label} {s : S} {h : List Obs} (e : run init [] ls = some (.ok s h)) (ha : alone none h = true) :
    ∃ p, (Phase.rest none).after h = some p ∧ Inv s p ∧ Strict s p (Who.after none h) ∧ AllRight (.rest none) none h :=
  path_strict (path_of_run ls e) inv_init strict_init ha

/-- Whatever the callers, the threads and the environment do, and in whichever order, the function is called exactly once for each successful start, with the
context of that start and not before the thread of the start before is gone; and what `pthread_join(3)` gets of a thread is what its function returned. -/
theorem thread_phases (ls : List Label) (r : Run) (e : run init [] ls = some r) : ((Phase.rest none).after r.history).isSome = true := by
  cases r with
  | ok s h =>
    obtain ⟨p, hp, _⟩ := path_inv (path_of_run ls e) inv_init
    show ((Phase.rest none).after h).isSome = true
    rw [hp]
    rfl
  | ub h =>
    obtain ⟨ls1, l, s', hpath, _⟩ := path_of_ub ls e
    obtain ⟨p, hp, _⟩ := path_inv hpath inv_init
    show ((Phase.rest none).after h).isSome = true
    rw [hp]
    rfl

example : run init [] [.start true true 7, .begin 0 true, .function 0, .notify, .return 0 5, .thread 0, .thread 0, .enter 3 true, .caller 3, .caller 3, .caller 3,
      .caller 3, .caller 3, .caller 3, .start true true 8, .begin 1 true, .function 1] =
    some (.ok
      { state := .running, context := 8, value := NOVALUE, cur := 1, notifications := 0, made := 2,
        thr := set (set (set (set (set (set (set (set (set (set init.thr 0 .created) 0 .begun) 0 .inside) 0 (.leaving none 1)) 0 (.leaving none 0)) 0 (.ended 5)) 0 .reaped) 1 .created)
          1 .begun) 1 .inside,
        busy := set (set init.busy 0 true) 0 false,
        pc := (run init [] [.start true true 7, .begin 0 true, .function 0, .notify, .return 0 5, .thread 0, .thread 0, .enter 3 true, .caller 3, .caller 3, .caller 3,
          .caller 3, .caller 3, .caller 3, .start true true 8, .begin 1 true, .function 1]).elim init.pc fun | .ok s _ => s.pc | .ub _ => init.pc }
      [.started 7, .nothing, .called 7, .notified, .finished 5, .nothing, .nothing, .entered 3 true, .nothing, .nothing, .reaped 5, .nothing, .nothing,
        .returned 3 .zero (some 5), .started 8, .nothing, .called 8]) := rfl

/-- There are never two threads of an object at once. -/
theorem thread_single (ls : List Label) (s : S) (h : List Obs) (e : run init [] ls = some (.ok s h)) (g g' : Nat)
    (hg : s.thr g ≠ .none ∧ s.thr g ≠ .reaped) (hg' : s.thr g' ≠ .none ∧ s.thr g' ≠ .reaped) : g = g' := by
  obtain ⟨p, _, hi⟩ := path_inv (path_of_run ls e) inv_init
  exact (hi.live hg.1 hg.2).1.trans (hi.live hg'.1 hg'.2).1.symm

example : ∃ s h, run init [] [.start true true 7, .begin 0 true] = some (.ok s h) ∧ s.thr 0 ≠ .none ∧ s.thr 0 ≠ .reaped := ⟨_, _, rfl, by decide, by decide⟩

/-- Each count of notifications is the number of those since the count before it, or since the start. -/
theorem thread_notifications (ls : List Label) (s : S) (h : List Obs) (e : run init [] ls = some (.ok s h)) : pending 0 h = some s.notifications :=
  path_count (path_of_run ls e)

example : ∃ s h, run init [] [.start true true 7, .notify, .begin 0 true, .notify, .function 0, .notifications 0, .notify] = some (.ok s h) ∧
    h = [.started 7, .notified, .nothing, .notified, .called 7, .counted 2, .notified] ∧ s.notifications = 1 := ⟨_, _, rfl, rfl, rfl⟩

/-- As long as at most one caller at a time joins, and nobody starts the object meanwhile, each join returns success and the value of the thread when that has ended,
a timeout only if there is a limit, and an error only if the object has not been started, or could not be.

Missing: that this is so with more than one caller, or with a start meanwhile.  It is not: see `thread_join_twice_counterexample`, `thread_join_forever_counterexample`
and `thread_join_restart_counterexample`. -/
theorem thread_join_right_partial (ls : List Label) (r : Run) (e : run init [] ls = some r) (ha : alone none r.history = true) : AllRight (.rest none) none r.history := by
  cases r with
  | ok s h => obtain ⟨_, _, _, _, hr⟩ := reach e ha; exact hr
  | ub h =>
    obtain ⟨ls1, l, s', hpath, _⟩ := path_of_ub ls e
    obtain ⟨_, _, _, _, hr⟩ := path_strict hpath inv_init strict_init ha
    exact hr

example : ∃ s h, run init [] [.enter 3 true, .caller 3, .caller 3, .start true true 7, .enter 3 false, .timeout 3, .caller 3, .caller 3, .caller 3, .begin 0 true, .function 0, .enter 4 true,
      .exit 0 5, .thread 0, .caller 4, .caller 4, .caller 4, .thread 0, .thread 0, .caller 4, .caller 4, .caller 4, .caller 4] = some (.ok s h) ∧ alone none h = true ∧
    .returned 3 .error none ∈ h ∧ .returned 3 .timedout none ∈ h ∧ .returned 4 .zero (some 5) ∈ h := ⟨_, _, rfl, rfl, by decide, by decide, by decide⟩

/-- In that case the behaviour is defined, as long as there are fewer than 2³¹ - 1 notifications that have not been counted.

Missing: that it is so with more notifications, or with more callers.  It is not: see `thread_notify_counterexample` and `thread_join_twice_counterexample`. -/
theorem thread_defined_partial (ls : List Label) (h : List Obs) (e : run init [] ls = some (.ub h)) (ha : alone none h = true) : ∃ n, pending 0 h = some n ∧ 2 ^ 31 - 1 ≤ n := by
  obtain ⟨ls1, l, s', hpath, hu⟩ := path_of_ub ls e
  obtain ⟨p, _, hi, hs, _⟩ := path_strict hpath inv_init strict_init ha
  exact ⟨s'.notifications, path_count hpath, step_ub hi hs hu⟩

/-- In that case the state changes only as it is documented to. -/
theorem thread_states_partial (ls : List Label) (s s' : S) (h : List Obs) (l : Label) (o : Obs) (e : run init [] ls = some (.ok s h)) (ha : alone none h = true)
    (hs : step s l = some (.ok s' o)) : s'.state = s.state ∨ Edge s.state s'.state = true := by
  obtain ⟨p, _, hi, hst, _⟩ := reach e ha
  rcases step_edge hi hst hs with h | ⟨h1 | h1, h2 | h2 | h2⟩ | ⟨h1, h2⟩ | ⟨h1, h2⟩ | ⟨h1, h2⟩
  · exact .inl h
  all_goals rw [h1, h2]; exact .inr rfl

example : ∃ s s' h, run init [] [.start true true 7, .begin 0 true, .function 0, .cancel 0] = some (.ok s h) ∧ alone none h = true ∧ step s (.thread 0) = some (.ok s' .nothing) ∧
    s.state = .running ∧ s'.state = .exiting := ⟨_, _, _, rfl, rfl, rfl, rfl, rfl⟩

/-- When its function has returned, the thread can always go on, and ends with its third step at the latest, whatever else is done meanwhile. -/
theorem thread_ends (ls ls' : List Label) (s s' : S) (h h' : List Obs) (g n : Nat) (v : Option Nat) (e : run init [] ls = some (.ok s h)) (hg : s.thr g = .leaving v n)
    (e' : run s [] ls' = some (.ok s' h')) :
    (∃ t o, step s (.thread g) = some (.ok t o)) ∧ (n + 1 ≤ tsteps g ls' → (s'.thr g).gone) := by
  obtain ⟨p, _, hi⟩ := path_inv (path_of_run ls e) inv_init
  refine ⟨?_, fun hn => ends (path_of_run ls' e') hi hg hn⟩
  show ∃ t o, thread s g = _
  unfold thread
  rw [hg]
  cases n with
  | zero => exact ⟨_, _, rfl⟩
  | succ n => exact ⟨_, _, rfl⟩

example : ∃ s s' h h', run init [] [.start true true 7, .begin 0 true, .function 0, .exit 0 9] = some (.ok s h) ∧ s.thr 0 = .leaving (some 9) 2 ∧
    run s [] [.thread 0, .enter 1 true, .thread 0, .thread 0] = some (.ok s' h') ∧ tsteps 0 [.thread 0, .enter 1 true, .thread 0, .thread 0] = 3 :=
  ⟨_, _, _, _, rfl, rfl, rfl, rfl⟩

/-- No wakeup is lost: with at most one caller at a time joining, if the thread has ended then that caller can always go on, and returns with its eighth step at
the latest, whatever else is done meanwhile.

Missing: that this is so if the thread could not be set up (`pthread_setspecific(3)` has failed), or with more callers.  It is not: see
`thread_join_broken_counterexample` and `thread_join_forever_counterexample`. -/
theorem thread_join_returns_partial (ls ls' : List Label) (s s' : S) (h h' : List Obs) (c : Nat) (e : run init [] ls = some (.ok s h)) (hc : s.pc c ≠ .idle)
    (hg : (s.thr s.cur).gone) (e' : run s [] ls' = some (.ok s' h')) (ha : alone none (h ++ h') = true) (hb : .broken ∉ h ++ h') :
    (∃ t o, step s (.caller c) = some (.ok t o)) ∧ (8 ≤ steps c ls' → ∃ rc v, .returned c rc v ∈ h') := by
  rw [alone_append, Bool.and_eq_true] at ha
  obtain ⟨p, _, hi, hs, _⟩ := reach e ha.1
  have hb1 : .broken ∉ h := fun hm => hb (List.mem_append_left _ hm)
  have hb2 : .broken ∉ h' := fun hm => hb (List.mem_append_right _ hm)
  have hw := path_whole (path_of_run ls e) inv_init strict_init ha.1 whole_init hb1
  refine ⟨progress hi hs hw hc hg, fun hn => ?_⟩
  refine returns (path_of_run ls' e') hi hs ha.2 hw hb2 hc hg (Nat.le_trans ?_ hn)
  cases s.pc c <;> simp [rank]

example : ∃ s s' h h', run init [] [.start true true 7, .enter 1 true, .begin 0 true, .function 0, .return 0 9, .thread 0, .thread 0] = some (.ok s h) ∧
    s.pc 1 ≠ .idle ∧ (s.thr s.cur).gone ∧
    run s [] [.caller 1, .caller 1, .caller 1, .caller 1, .caller 1, .caller 1, .caller 1] = some (.ok s' h') ∧ alone none (h ++ h') = true ∧ .broken ∉ h ++ h' ∧
    .returned 1 .zero (some 9) ∈ h' := ⟨_, _, _, _, rfl, by decide, trivial, rfl, rfl, by decide, by decide⟩

/-! ## What goes wrong -/

/-- With two callers, both may call `pthread_join(3)` for the same thread, which is undefined. -/
theorem thread_join_twice_counterexample : ∃ ls h, run init [] ls = some (.ub h) ∧ h.length = 12 :=
  ⟨[.start true true 7, .begin 0 true, .function 0, .enter 0 true, .enter 1 true, .return 0 5, .thread 0, .caller 0, .caller 1, .caller 0, .caller 1, .caller 0, .caller 1],
    _, rfl, rfl⟩

/-- With two callers, the second may miss the only state that it waits for, and then waits for ever although the thread has ended and has been joined. -/
theorem thread_join_forever_counterexample : ∃ ls s h, run init [] ls = some (.ok s h) ∧ s.state = .joined ∧ .returned 0 .zero (some 5) ∈ h ∧ .entered 1 true ∈ h ∧
    ∀ ls' s' h', (∀ l ∈ ls', ∀ a b x, l ≠ .start a b x) → run s [] ls' = some (.ok s' h') → ∀ rc v, .returned 1 rc v ∉ h ++ h' := by
  refine ⟨[.start true true 7, .begin 0 true, .function 0, .enter 0 true, .enter 1 true, .return 0 5, .thread 0, .thread 0, .caller 0, .caller 0, .caller 0, .caller 0, .caller 0,
    .caller 0, .caller 0, .caller 1], _, _, rfl, rfl, by decide, by decide, ?_⟩
  intro ls' s' h' hl e rc v hm
  rcases List.mem_append.1 hm with hm | hm
  · simp at hm
  · refine path_avoid (P := Stuck 1) (Q := fun l => ∀ a b x, l ≠ .start a b x) (c := 1) stuck_step (path_of_run ls' e) ⟨rfl, ?_, .inl rfl⟩ hl rc v hm
    intro g
    cases g with
    | zero => exact .inr rfl
    | succ g => exact .inl rfl

/-- With a start meanwhile, a join may return success with a value that no function has returned. -/
theorem thread_join_restart_counterexample : ∃ ls s h, run init [] ls = some (.ok s h) ∧ .reaped 5 ∈ h ∧ .returned 0 .zero (some NOVALUE) ∈ h ∧ .finished NOVALUE ∉ h :=
  ⟨[.start true true 7, .begin 0 true, .function 0, .enter 0 true, .return 0 5, .thread 0, .thread 0, .caller 0, .caller 0, .caller 0, .caller 0, .caller 0, .caller 0,
    .start true true 8, .caller 0], _, _, rfl, by decide, by decide, by decide⟩

/-- If the thread could not be set up, a join without limit does not return, although the thread has ended; and the object cannot be started again. -/
theorem thread_join_broken_counterexample : ∃ ls s h, run init [] ls = some (.ok s h) ∧ alone none h = true ∧ (s.thr s.cur).gone ∧ .entered 0 true ∈ h ∧
    ∀ ls' s' h', run s [] ls' = some (.ok s' h') → ∀ rc v, .returned 0 rc v ∉ h ++ h' := by
  refine ⟨[.start true true 7, .enter 0 true, .begin 0 false], _, _, rfl, rfl, trivial, by decide, ?_⟩
  intro ls' s' h' e rc v hm
  rcases List.mem_append.1 hm with hm | hm
  · simp at hm
  · refine path_avoid (P := Broken 0) (Q := fun _ => True) (c := 0) (fun s l s' o h _ e => broken_step s l s' o h e) (path_of_run ls' e) ⟨rfl, ?_, .inl rfl, ?_⟩
      (fun _ _ => trivial) rc v hm
    · intro g
      cases g with
      | zero => exact .inr ⟨_, rfl⟩
      | succ g => exact .inl rfl
    · intro c'
      cases c' with
      | zero => exact ⟨by decide, fun g h => (by cases h), fun v h => (by cases h)⟩
      | succ c' => exact ⟨fun h => (by cases h), fun g h => (by cases h), fun v h => (by cases h)⟩

/-- Notifications do not saturate: 2³¹ of them that are not counted are undefined. -/
theorem thread_notify_counterexample : ∃ ls h, run init [] ls = some (.ub h) ∧ alone none h = true := by
  obtain ⟨n, hn⟩ : ∃ n, n = 2 ^ 31 - 1 := ⟨_, rfl⟩
  refine ⟨.start true true 7 :: List.replicate (n + 1) .notify, .started 7 :: List.replicate n .notified, ?_, ?_⟩
  · rw [run_cons]
    show (run _ [] _).map _ = _
    exact (congrArg (Option.map (Run.pre [.started 7])) (run_notify n _ rfl rfl ((Nat.zero_add _).trans hn))).trans rfl
  · clear hn
    show alone none (List.replicate n .notified) = true
    induction n with
    | zero => rfl
    | succ n ih => exact ih

/-- An execution to which `thread_defined_partial` applies. -/
example : ∃ ls h, run init [] ls = some (.ub h) ∧ alone none h = true := thread_notify_counterexample

end Diminuto.Thread
