import Verif.SignalsLemmas

/-!
# Property C50: signal counters
-/

namespace Diminuto.Signals

/-- C50 (partial: no two threads access the counter at the same time, see `signals_race_counterexample`): the counter and the checks do what
the specification says. -/
theorem signals_atomic_partial (es : List Event) (s : State) (h : Run es s) : count s.log = some s.signaled.toNat := by
  obtain ⟨n, h1, h2, -⟩ := (run_inv h).spec
  rw [h2]
  exact h1

/-- C50 (partial, as above): when no check is in progress, the checks have returned what they reported. -/
theorem signals_returned_partial (es : List Event) (s : State) (h : Run es s) (hq : ∀ t, s.pc t = .idle) :
    s.returned = reports s.log := by
  have hi := run_inv h
  have hm : s.mutex = none := by
    cases hm : s.mutex with
    | none => rfl
    | some t => exact absurd (hq t) ((hi.holder t).2 hm)
  have := hi.ret
  rw [hm] at this
  exact this.symm

/-- C50 (partial, as above, and without a second install): as long as there are no more signals than the maximum, those that the checks have
returned and those pending are all the signals handled. -/
theorem signals_none_lost_partial (es : List Event) (s : State) (h : Run es s) (hq : ∀ t, s.pc t = .idle)
    (hr : Act.reset ∉ s.log) (hs : signals s.log ≤ 2 ^ 31 - 1) :
    total s.returned + s.signaled.toInt = signals s.log := by
  obtain ⟨n, h1, h2, h3⟩ := (run_inv h).spec
  rw [signals_returned_partial es s h hq, toInt_small _ (by omega), h2]
  exact (count_total _ _ h1 hr hs).1

/-- C50: in a process with one thread, or if only one thread does not block the signal and it is the one that checks, no two
threads access the counter at the same time, so that the theorems above hold. -/
theorem signals_single_thread (t : Nat) (es : List Event) (s : State) (h : run start es = some s)
    (ht : ∀ e ∈ es, e.thread = t) : Run es s := by
  suffices ∀ (es es0 : List Event) (s0 : State), Run es0 s0 → Inv s0 → (∀ u, u ≠ t → Silent s0 u) → run s0 es = some s →
      (∀ e ∈ es, e.thread = t) → Run (es0 ++ es) s from by
    have := this es [] start .nil inv_start (fun u _ => ⟨rfl, rfl⟩) h ht
    simpa using this
  intro es
  induction es with
  | nil =>
    intro es0 s0 h0 _ _ h1 _
    simp only [run, Option.some.injEq] at h1
    subst h1
    simpa using h0
  | cons e es ih =>
    intro es0 s0 h0 hi0 hs0 h1 ht
    simp only [run, Option.bind_eq_some_iff] at h1
    obtain ⟨s1, h2, h3⟩ := h1
    have het : e.thread = t := ht e (by simp)
    have hap : Apart s0 e := by
      cases e with
      | deliver v =>
        obtain rfl : v = t := het
        intro u hu
        exact ⟨(hs0 u hu).1, by rintro (h | ⟨my, h⟩) <;> rw [(hs0 u hu).2] at h <;> simp at h⟩
      | handle v => trivial
      | check v =>
        obtain rfl : v = t := het
        intro _ u hu
        exact (hs0 u hu).1
      | install v =>
        obtain rfl : v = t := het
        simp only [step] at h2
        split at h2
        · rename_i hc
          intro u
          by_cases hu : u = v
          · subst hu
            exact ⟨hc.1, by rintro (h | ⟨my, h⟩) <;> rw [hc.2] at h <;> simp at h⟩
          · exact ⟨(hs0 u hu).1, by rintro (h | ⟨my, h⟩) <;> rw [(hs0 u hu).2] at h <;> simp at h⟩
        · simp at h2
    have := ih (es0 ++ [e]) s1 (h0.snoc hap h2) (step_inv hi0 e hap h2)
      (fun u hu => step_silent h2 u (by rw [het]; exact Ne.symm hu) (hs0 u hu)) h3
      (fun x hx => ht x (by simp [hx]))
    rwa [List.append_assoc] at this

/-- C50 is false for the code: the mutex keeps other checks out and the mask only concerns the thread that checks.  A signal that another thread
handles between the two accesses is lost. -/
theorem signals_race_counterexample :
    ∃ s, run start [.check 1, .check 1, .check 1, .deliver 2, .handle 2, .handle 2, .check 1, .check 1, .check 1] = some s ∧
      (∀ t, t = 1 ∨ t = 2 → s.pc t = .idle ∧ s.handler t = .none) ∧ signals s.log = 1 ∧
      total s.returned + s.signaled.toInt = 0 := by
  refine ⟨_, rfl, ?_, rfl, by decide⟩
  rintro t (rfl | rfl) <;> exact ⟨rfl, rfl⟩

/-- C50 is false for the code: two handlers in two threads can lose a signal, too. -/
theorem signals_handlers_counterexample :
    ∃ s, run start [.deliver 1, .deliver 2, .handle 1, .handle 2, .handle 1, .handle 2] = some s ∧
      (∀ t, t = 1 ∨ t = 2 → s.pc t = .idle ∧ s.handler t = .none) ∧ signals s.log = 2 ∧
      total s.returned + s.signaled.toInt = 1 := by
  refine ⟨_, rfl, ?_, rfl, by decide⟩
  rintro t (rfl | rfl) <;> exact ⟨rfl, rfl⟩

/-- C50 is false for the code: the install function of the interrupter and the terminator clears the counter after
it has installed the handler, and loses a signal handled in between. -/
theorem signals_install_counterexample :
    ∃ s, run start [.deliver 1, .handle 1, .handle 1, .install 1] = some s ∧ signals s.log = 1 ∧
      total s.returned + s.signaled.toInt = 0 := by
  exact ⟨_, rfl, rfl, by decide⟩

/-- A run with one thread, three signals, of which two are reported and one is pending. -/
example : ∃ s, run start [.deliver 1, .handle 1, .handle 1, .check 1, .deliver 1, .handle 1, .handle 1, .check 1, .check 1, .check 1,
      .check 1, .deliver 1, .handle 1, .handle 1, .check 1] = some s ∧
    s.returned = [2#32] ∧ s.signaled = 1#32 ∧ signals s.log = 3 := ⟨_, rfl, rfl, by decide, rfl⟩

end Diminuto.Signals
