import Verif.MakingLemmas

/-!
# Properties of how timers and threads are initialized and finalized (C169)

The full statement has also that a failed initialization leaves nothing behind, that a finalization that fails can be made again, and that initializing a thread is defined.  These are false:
`timer_init_leak_counterexample`, `timer_fini_again_counterexample` and `thread_init_counterexample`.
-/

namespace Diminuto.Making

/-- A world in which all calls succeed, with priorities from 1 to 99. -/
def fine : World := fun c => match c with
  | .minimum _ => 1
  | .maximum _ => 99
  | _ => 0

/-- C169.  The initialization of a timer is never undefined; it succeeds if and only if it is asked for either a function or a signal and all calls that it makes succeed; if it fails there is no POSIX timer. -/
theorem timer_init_partial (w : World) (periodic : Bool) (fp : Option Nat) (signum scheduler priority : Int) :
    (timerInit w fresh periodic fp signum scheduler priority).2.ub = false ∧
    ((timerInit w fresh periodic fp signum scheduler priority).1.isSome = true ↔ One fp signum ∧ Fine w (timerInit w fresh periodic fp signum scheduler priority).2) ∧
    ((timerInit w fresh periodic fp signum scheduler priority).1 = none → (timerInit w fresh periodic fp signum scheduler priority).2.live .timer = false) := by
  have h := timerInit_sound w periodic fp signum scheduler priority
  exact ⟨h.1, h.2.1, h.2.2.1⟩

example : (timerInit fine fresh true (some 7) 0 1 49).1.isSome = true ∧ (timerInit fine fresh true (some 7) 14 1 49).1 = none ∧ (timerInit fine fresh true none 14 1 49).1.isSome = true := by decide

/-- C169.  A timer that was initialized has all of its POSIX objects, is idle, has the given function and periodicity, and the POSIX timer was made with the given function or signal. -/
theorem timer_init_result (w : World) (periodic : Bool) (fp : Option Nat) (signum scheduler priority : Int) (t : Timer)
    (h : (timerInit w fresh periodic fp signum scheduler priority).1 = some t) :
    Holds (timerInit w fresh periodic fp signum scheduler priority).2 whole ∧ t = ⟨fp, periodic, .idle⟩ ∧
    (timerInit w fresh periodic fp signum scheduler priority).2.log.head? = some (.timerCreate (asked fp signum)) :=
  (timerInit_sound w periodic fp signum scheduler priority).2.2.2.1 t h

example : (timerInit fine fresh true none 14 1 49).1 = some ⟨none, true, .idle⟩ := by decide

/-- C169.  For a function the scheduler is the given one and the priority the nearest to the given one that it has; for a signal neither is set. -/
theorem timer_init_scheduled (w : World) (periodic : Bool) (fp : Option Nat) (signum scheduler priority : Int) :
    Scheduled w (timerInit w fresh periodic fp signum scheduler priority).2 scheduler priority ∧
    (fp = none → ∀ c ∈ (timerInit w fresh periodic fp signum scheduler priority).2.log, (∀ x, c ≠ .setPolicy x) ∧ ∀ q, c ≠ .setParam q) := by
  have h := (timerInit_sound w periodic fp signum scheduler priority).2.2.2.2
  refine ⟨⟨fun x hx => ?_, fun hm q hq => ?_⟩, fun hf c hc => ?_⟩
  · rcases h _ hx with hp | ⟨-, e | e⟩
    · exact absurd rfl (hp.1 x)
    · injection e
    · exact nomatch e
  · rcases h _ hq with hp | ⟨-, e | e⟩
    · exact absurd rfl (hp.2 q)
    · exact nomatch e
    · injection e with e
      rw [e]
      exact clamp_nearest _ _ _ hm
  · rcases h c hc with hp | ⟨e, -⟩
    · exact hp
    · rw [hf] at e; exact nomatch e

/-- A priority that is too low, one that is too high, and one that is neither. -/
example : Call.setParam 1 ∈ (timerInit fine fresh true (some 7) 0 1 0).2.log ∧ Call.setParam 99 ∈ (timerInit fine fresh true (some 7) 0 1 100).2.log ∧
    Call.setParam 49 ∈ (timerInit fine fresh true (some 7) 0 1 49).2.log := by decide

/-- C169.  For root the scheduler of a timer that calls a function is the first-in first-out one and the priority the nearest to 49; for others the default one and the nearest to 0. -/
theorem timer_generic (w : World) (euid : Nat) (periodic : Bool) (fp : Option Nat) (signum : Int) :
    Scheduled w (timerGeneric w fresh euid periodic fp signum).2 (if euid = 0 then SCHED_FIFO else SCHED_OTHER) (if euid = 0 then 49 else 0) := by
  simp only [timerGeneric]
  by_cases h : euid = 0
  · simp only [h, if_true]
    exact (timer_init_scheduled w periodic fp signum _ _).1
  · simp only [h, if_false]
    exact (timer_init_scheduled w periodic fp signum _ _).1

example : Call.setPolicy 1 ∈ (timerGeneric fine fresh 0 true (some 7) 0).2.log ∧ Call.setPolicy 0 ∈ (timerGeneric fine fresh 1000 true (some 7) 0).2.log := by decide

/-- C169.  An initialization that fails after something was made leaves it behind: with both a function and a signal it always fails, and all but the POSIX timer is there, if all calls succeed. -/
theorem timer_init_leak_counterexample (w : World) (periodic : Bool) (f : Nat) (signum scheduler priority : Int) (hw : ∀ c, ok w c = true) (hs : 0 < signum) :
    (timerInit w fresh periodic (some f) signum scheduler priority).1 = none ∧ Holds (timerInit w fresh periodic (some f) signum scheduler priority).2 [.attributes, .mutexattr, .mutex, .condition] := by
  have h1 : ¬ w (.minimum scheduler) < 0 := by have := hw (.minimum scheduler); simp only [ok, decide_eq_true_eq] at this; omega
  have h2 : ¬ w (.maximum scheduler) < 0 := by have := hw (.maximum scheduler); simp only [ok, decide_eq_true_eq] at this; omega
  rw [holds_iff]
  simp [timerInit, schedule, conditionInit, mutexInit, hw, h1, h2, hs, ask, makes, destroys, fresh]

example : ∀ c, ok fine c = true := by intro c; cases c <;> rfl

/-- C169.  The finalization of a timer that has all of its POSIX objects is defined, destroys what can be destroyed of the POSIX timer and of the attributes, and succeeds if and only if nothing is left. -/
theorem timer_fini (w : World) (s : S) (hs : Holds s whole) (hu : s.ub = false) :
    (timerFini w s).2.ub = false ∧ ((timerFini w s).1 = true ↔ Holds (timerFini w s).2 []) ∧
    ((timerFini w s).2.live .timer = false ↔ ok w .timerDelete = true) ∧ ((timerFini w s).2.live .attributes = false ↔ ok w .attrDestroy = true) := by
  obtain ⟨h1, h2, h3, h4, h5⟩ := (holds_iff _ _).mp hs
  simp only [whole, List.mem_cons, true_or, or_true, decide_true, reduceCtorEq, false_or] at h1 h2 h3 h4 h5
  have ha := conditionFini_sound w (ask w (ask w s .timerDelete) .attrDestroy)
    (by cases ok w .timerDelete <;> cases ok w .attrDestroy <;> simp [ask, *, makes, destroys])
    (by cases ok w .timerDelete <;> cases ok w .attrDestroy <;> simp [ask, *, makes, destroys])
    (by cases ok w .timerDelete <;> cases ok w .attrDestroy <;> simp [ask, *, makes, destroys])
  have e1 : (ask w (ask w s .timerDelete) .attrDestroy).live .timer = !ok w .timerDelete := by
    cases h : ok w .timerDelete <;> simp [ask, h, h5, makes, destroys]
  have e2 : (ask w (ask w s .timerDelete) .attrDestroy).live .attributes = !ok w .attrDestroy := by
    cases h : ok w .attrDestroy <;> simp [ask, h, h1, makes, destroys]
  have e3 : (ask w (ask w s .timerDelete) .attrDestroy).ub = false := by
    cases h : ok w .timerDelete <;> simp [ask, h, h1, h5, hu, needs, makes, destroys]
  obtain ⟨a1, a2, a3, a4, -⟩ := ha
  rw [e1] at a3
  rw [e2] at a2
  rw [e3] at a1
  rw [holds_iff]
  simp only [timerFini, List.not_mem_nil, decide_false]
  generalize conditionFini w (ask w (ask w s .timerDelete) .attrDestroy) = c at *
  refine ⟨a1, ?_, by rw [a3]; simp, by rw [a2]; simp⟩
  rw [a2, a3]
  simp only [Bool.and_eq_true, a4, Bool.not_eq_eq_eq_not, Bool.not_false]
  constructor
  · rintro ⟨⟨x, y⟩, z⟩; exact ⟨y, z.1, z.2.1, z.2.2, x⟩
  · rintro ⟨y, z1, z2, z3, x⟩; exact ⟨⟨x, y⟩, z1, z2, z3⟩

/-- C169.  A timer that was initialized and is finalized, if all calls for that succeed, leaves nothing behind. -/
theorem timer_round (w v : World) (periodic : Bool) (fp : Option Nat) (signum scheduler priority : Int) (t : Timer)
    (h : (timerInit w fresh periodic fp signum scheduler priority).1 = some t) (hv : ∀ c, ok v c = true) :
    (timerFini v (timerInit w fresh periodic fp signum scheduler priority).2).1 = true ∧ Holds (timerFini v (timerInit w fresh periodic fp signum scheduler priority).2).2 [] ∧
    (timerFini v (timerInit w fresh periodic fp signum scheduler priority).2).2.ub = false := by
  have hi := timerInit_sound w periodic fp signum scheduler priority
  have hf := timer_fini v _ (hi.2.2.2.1 t h).1 hi.1
  have : (timerFini v (timerInit w fresh periodic fp signum scheduler priority).2).1 = true := by
    simp [timerFini, conditionFini, mutexFini, hv]
  exact ⟨this, hf.2.1.mp this, hf.1⟩

example : (timerInit fine fresh false (some 1) 0 0 0).1.isSome = true ∧ (timerFini fine (timerInit fine fresh false (some 1) 0 0 0).2).1 = true := by decide

/-- A world in which the POSIX timer cannot be deleted. -/
def stuck : World := fun c => match c with
  | .timerDelete => -1
  | c => fine c

/-- C169.  A finalization that fails cannot be made again: the second one is undefined, since what could be destroyed has been. -/
theorem timer_fini_again_counterexample : ∃ s w v, Holds s whole ∧ s.ub = false ∧ (timerFini w s).1 = false ∧ (∀ c, ok v c = true) ∧ (timerFini v (timerFini w s).2).2.ub = true :=
  ⟨(timerInit fine fresh false (some 1) 0 0 0).2, stuck, fine, (timer_init_result fine false (some 1) 0 0 0 ⟨some 1, false, .idle⟩ (by decide)).1, by decide, by decide,
    by intro c; cases c <;> rfl, by decide⟩

/-- C169.  The initialization of a thread uses attributes that were not initialized, whenever the condition can be made. -/
theorem thread_init_counterexample (w : World) (scheduler priority : Int) (h : (conditionInit w fresh).1 = true) : (threadInit w fresh scheduler priority).2.ub = true := by
  obtain ⟨-, c2, -⟩ := condition_sound w fresh rfl rfl rfl
  simp only [threadInit]
  generalize conditionInit w fresh = c at *
  obtain ⟨b, s⟩ := c
  simp only [] at h c2
  subst h
  have hub : ∀ (s : S) (c : Call), s.ub = true → (ask w s c).ub = true := fun s c h => by simp [ask, h]
  have h0 : (ask w s .setInherit).ub = true := by simp [ask, needs, c2, fresh]
  have hs : (schedule w s scheduler priority).2.ub = true := by
    simp only [schedule]
    split
    · split
      · split
        · exact hub _ _ (hub _ _ h0)
        · split
          · exact hub _ _ (hub _ _ (hub _ _ h0))
          · exact hub _ _ (hub _ _ (hub _ _ (hub _ _ h0)))
      · exact hub _ _ h0
    · exact h0
  simp only []
  generalize schedule w s scheduler priority = r at *
  obtain ⟨b, s⟩ := r
  cases b <;> exact hs

example : (conditionInit fine fresh).1 = true := by decide

/-- If attributes that are all zeros are as good as initialized ones. -/
def zeroed : S := { fresh with live := fun r => decide (r = .attributes) }

/-- C169.  If so, the initialization of a thread is defined, succeeds if and only if all calls that it makes do, makes a mutex and a condition, and sets the given scheduler and the nearest priority. -/
theorem thread_init_partial (w : World) (scheduler priority : Int) :
    (threadInit w zeroed scheduler priority).2.ub = false ∧ ((threadInit w zeroed scheduler priority).1 = some .initialized ↔ Fine w (threadInit w zeroed scheduler priority).2) ∧
    ((threadInit w zeroed scheduler priority).1.isSome = true → Holds (threadInit w zeroed scheduler priority).2 [.attributes, .mutexattr, .mutex, .condition]) ∧
    Scheduled w (threadInit w zeroed scheduler priority).2 scheduler priority := by
  obtain ⟨c1, c2, c3, c4, l, c5, c6, c7⟩ := condition_sound w zeroed rfl rfl rfl
  simp only [threadInit]
  generalize conditionInit w zeroed = c at *
  obtain ⟨b, s⟩ := c
  simp only [zeroed, fresh, List.append_nil, decide_true, decide_false, reduceCtorEq] at c1 c2 c3 c4 c5 c6
  subst c5
  cases b with
  | false =>
    refine ⟨c1, ⟨fun h => (nomatch h), fun h => (nomatch c6.mpr h)⟩, fun h => (nomatch h), fun x hx => ?_, fun _ q hq => ?_⟩
    · rcases c7 _ hx with e | e | e | e <;> cases e
    · rcases c7 _ hq with e | e | e | e <;> cases e
  | true =>
    obtain ⟨d1, d2, d3⟩ := c4 rfl
    obtain ⟨s1, s2, l, s3, s4, s5⟩ := schedule_sound w s scheduler priority c2
    simp only []
    generalize schedule w s scheduler priority = r at *
    obtain ⟨b, s'⟩ := r
    simp only [] at s1 s2 s3 s4
    have hS : Scheduled w s' scheduler priority := by
      refine ⟨fun x hx => ?_, fun hm q hq => ?_⟩
      · rw [s3] at hx
        rcases List.mem_append.mp hx with hx | hx
        · rcases s5 _ hx with e | e | e | e | e <;> first | (injection e) | cases e
        · rcases c7 _ hx with e | e | e | e <;> cases e
      · rw [s3] at hq
        rcases List.mem_append.mp hq with hq | hq
        · rcases s5 _ hq with e | e | e | e | e
          · cases e
          · cases e
          · cases e
          · cases e
          · injection e with e
            rw [e]
            exact clamp_nearest _ _ _ hm
        · rcases c7 _ hq with e | e | e | e <;> cases e
    have hF : b = true ↔ Fine w s' := by
      rw [s4, Fine, s3]
      exact ⟨fun h c hc => (List.mem_append.mp hc).elim (h c) (c6.mp rfl c), fun h c hc => h c (List.mem_append.mpr (Or.inl hc))⟩
    cases b with
    | false => exact ⟨s2.trans c1, ⟨fun h => (nomatch h), fun h => (nomatch hF.mpr h)⟩, fun h => (nomatch h), hS⟩
    | true =>
      refine ⟨s2.trans c1, ⟨fun _ => hF.mp rfl, fun _ => rfl⟩, fun _ => ?_, hS⟩
      rw [holds_iff]
      simp only [s1, c2, d1, d2, d3, c3, List.mem_cons, true_or, or_true, decide_true, reduceCtorEq, false_or, List.not_mem_nil, decide_false, and_self]

example : (threadInit fine zeroed 2 48).1 = some .initialized := by decide

/-- C169.  For root the scheduler of a thread is the round robin one and the priority the nearest to 48. -/
theorem thread_generic_partial (w : World) (euid : Nat) :
    Scheduled w (threadGeneric w zeroed euid).2 (if euid = 0 then SCHED_RR else SCHED_OTHER) (if euid = 0 then 48 else 0) := by
  simp only [threadGeneric]
  by_cases h : euid = 0
  · simp only [h, if_true]; exact (thread_init_partial w _ _).2.2.2
  · simp only [h, if_false]; exact (thread_init_partial w _ _).2.2.2

example : Call.setPolicy 2 ∈ (threadGeneric fine zeroed 0).2.log ∧ Call.setParam 48 ∈ (threadGeneric fine zeroed 0).2.log := by decide

/-- C169.  A thread is finalized if it has not been started, has been joined or could not be started: then it succeeds if and only if neither the mutex nor the condition is left, and it is defined. -/
theorem thread_fini (w : World) (s : S) (x : Thread.State) (hx : x = .initialized ∨ x = .joined ∨ x = .failed)
    (h1 : s.live .mutexattr = true) (h2 : s.live .mutex = true) (h3 : s.live .condition = true) :
    (threadFini w s (.other x)).2.ub = s.ub ∧
    ((threadFini w s (.other x)).1.1 = true ↔
      (threadFini w s (.other x)).2.live .mutexattr = false ∧ (threadFini w s (.other x)).2.live .mutex = false ∧ (threadFini w s (.other x)).2.live .condition = false) ∧
    ((threadFini w s (.other x)).1.1 = true ↔ (threadFini w s (.other x)).1.2 = .finalized) := by
  obtain ⟨a1, -, -, a4, -⟩ := conditionFini_sound w s h1 h2 h3
  rcases hx with rfl | rfl | rfl
  all_goals
    simp only [threadFini]
    generalize conditionFini w s = c at *
    obtain ⟨b, s'⟩ := c
    cases b
    · exact ⟨a1, a4, by simp⟩
    · exact ⟨a1, a4, by simp⟩

example : (threadFini fine (threadInit fine zeroed 2 48).2 (.other .initialized)).1 = (true, .finalized) := by decide

/-- C169.  A thread that is started, running or exiting is left alone, and the finalization fails; one that is finalized, or was never initialized, is left alone too, and it succeeds. -/
theorem thread_fini_other (w : World) (s : S) (l : Life) (hl : ∀ x, l = .other x → x ≠ .initialized ∧ x ≠ .joined ∧ x ≠ .failed) :
    (threadFini w s l).2.log = s.log ∧ (threadFini w s l).2.live = s.live ∧ (threadFini w s l).2.ub = s.ub ∧
    (threadFini w s l).1 = if l = .allocated ∨ l = .finalized then (true, .finalized) else (false, l) := by
  cases l with
  | allocated => exact ⟨rfl, rfl, rfl, by simp [threadFini]⟩
  | finalized => exact ⟨rfl, rfl, rfl, by simp [threadFini]⟩
  | other x =>
    have := hl x rfl
    cases x <;> first | (exact ⟨rfl, rfl, rfl, by simp [threadFini]⟩) | simp at this

example : (threadFini fine (threadInit fine zeroed 2 48).2 (.other .running)).1 = (false, .other .running) := by decide

/-- C169.  The window is at least a second, and no less than twice an interval of less than 2^63 ticks; it is one of the two. -/
theorem window_partial (i : BitVec 64) : 1000000000 ≤ (window i).toNat ∧ (i.toNat < 2 ^ 63 → (window i).toNat = max 1000000000 (2 * i.toNat)) := by
  have hm : (i * 2#64).toNat = i.toNat * 2 % 2 ^ 64 := by rw [BitVec.toNat_mul]; rfl
  simp only [window, BitVec.lt_def, hm]
  have hk : (1000000000#64).toNat = 1000000000 := rfl
  rw [hk]
  split
  · rw [hk]; omega
  · rw [hm]; omega

example : window 3000000000#64 = 6000000000#64 ∧ window 1#64 = 1000000000#64 := by decide

/-- C169.  For longer intervals the window is too short. -/
theorem window_counterexample : ∃ i : BitVec 64, (window i).toNat < i.toNat := ⟨BitVec.ofNat 64 (2 ^ 63), by decide⟩

end Diminuto.Making
