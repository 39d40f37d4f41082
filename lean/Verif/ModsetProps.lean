import Verif.ModsetLemmas

/-!
# Properties of changing the duty cycle of a modulator that runs

The claims: (1) when the function that changes the duty cycle of a modulator that runs returns, the callback has taken over what had been asked for last; (2) it does return, within 256 firings; (3) the new duty cycle is assumed when the current cycle of on and off is complete.

(2) is false if the modulator is stopped meanwhile, `modset_stop_counterexample`, and if two threads change the duty cycle, of which one may wait for ever although nothing is left to wait for, `modset_two_counterexample`.  (3) is false: the counts are taken over when
the output is to change in the middle of a cycle, too, `modset_cycle_counterexample`.
-/

namespace Diminuto.Modset

open Diminuto.Modulator (counts)

/-- C162: who is told has asked, and the callback has taken over the counts since then; and those are what had been asked for last, by anybody. -/
theorem modset_told (first : Nat) (hf : first ≤ 255) (es : List Event) (he : ∀ t d, .set t d ∈ es → d ≤ 255) (s : State) (hr : run (init first) es = some s) (pre : List Deed) (t : Nat) (post : List Deed) (hl : s.log = pre ++ .returned t :: post) :
    ∃ before d a on off b, pre = before ++ .asked t d true :: (a ++ .took on off :: b) ∧ Quiet t (a ++ .took on off :: b) ∧ (on, off) = counts (wanted first (before ++ .asked t d true :: a)) := by
  have hg := run_good first es (init_good first hf) he hr
  obtain ⟨before, d, mid, h1, h2, on, off, h3⟩ := hg.told pre t post hl
  obtain ⟨a, b, rfl⟩ := List.append_of_mem h3
  refine ⟨before, d, a, on, off, b, h1, h2, hg.took (before ++ .asked t d true :: a) on off (b ++ .returned t :: post) ?_⟩
  rw [hl, h1]
  simp

/-- A thread asks for a third of the time, and wakes up once before that is in effect. -/
def exampleEvents : List Event := [.start, .fire 0, .set 7 85, .fire 0, .spurious 7, .retry 7] ++ (List.replicate 35 (.fire 0)) ++ [.retry 7]

example : (run (init 102) exampleEvents).map (·.log) = some [.took 34 51, .asked 7 85 true, .took 17 34, .returned 7] := by decide +kernel

/-- C162: when the function returns after waiting, what has been asked for last is in effect. -/
theorem modset_effect (first : Nat) (hf : first ≤ 255) (es : List Event) (he : ∀ t d, .set t d ∈ es → d ≤ 255) (s s' : State) (hr : run (init first) es = some s) (t : Nat) (hs : step s (.retry t) = some s') (hl : s'.log = s.log ++ [.returned t]) :
    (s'.m.on, s'.m.off) = counts (wanted first s.log) := by
  have hg := run_good first es (init_good first hf) he hr
  unfold step at hs
  simp only [] at hs
  split at hs
  · split at hs
    · cases hs
      have := congrArg List.length hl
      simp at this
    · rename_i hset
      cases hs
      exact hg.effect (by simpa using hset)
  · exact (nomatch hs)

example : ∃ s s', run (init 102) exampleEvents.dropLast = some s ∧ step s (.retry 7) = some s' ∧ s'.log = s.log ++ [.returned 7] ∧ (s'.m.on, s'.m.off) = (17, 34) :=
  ⟨(run (init 102) exampleEvents.dropLast).getD (init 0), (run (init 102) exampleEvents).getD (init 0), by decide +kernel⟩

/-- C162: the function returns within 256 firings.  Missing are other threads that change the duty cycle, and that the modulator is stopped. -/
theorem modset_returns_partial (first : Nat) (hf : first ≤ 255) (es : List Event) (he : ∀ t d, .set t d ∈ es → d ≤ 255) (s : State) (hr : run (init first) es = some s) (ha : s.armed = true) (t : Nat) (hb : s.blocked = [t]) (hw : s.woken = []) (hset : s.m.set = true)
    (ws : List Nat) (hn : ws.length = 256) : ∃ s', run s (ws.map .fire ++ [.retry t]) = some s' ∧ s'.log.getLast? = some (.returned t) ∧ s'.blocked = [] ∧ s'.woken = [] := by
  have hg := run_good first es (init_good first hf) he hr
  obtain ⟨q, q1, q2, q3, _⟩ := fires ws s ha
  obtain ⟨q4, q5⟩ := q3 hset (by have := hg.small.1; omega)
  obtain ⟨q6, q7⟩ := q5 t hb hw
  have happ : ∀ (as bs : List Event) (s : State), run s (as ++ bs) = (run s as).bind fun s => run s bs := by
    intro as bs
    induction as with
    | nil => intro s; rfl
    | cons a as ih =>
      intro s
      show (step s a).bind _ = ((step s a).bind _).bind _
      cases step s a with
      | none => rfl
      | some q => exact ih q
  refine ⟨{ q with woken := q.woken.erase t, log := q.log ++ [.returned t] }, ?_, by simp, q7, by show q.woken.erase t = []; rw [q6]; simp⟩
  rw [happ, q1, Option.bind_some]
  unfold run step run
  simp only []
  rw [if_pos (by rw [q6]; exact List.mem_singleton.mpr rfl), q4, if_neg (by simp)]
  rfl

example : ∃ s, run (init 1) [.start, .fire 0, .fire 0, .fire 0, .set 7 200] = some s ∧ s.armed = true ∧ s.blocked = [7] ∧ s.woken = [] ∧ s.m.set = true ∧ s.m.cycle = 254 :=
  ⟨(run (init 1) [.start, .fire 0, .fire 0, .fire 0, .set 7 200]).getD (init 0), by decide +kernel⟩

/-- C162: a thread that waits when the modulator is stopped waits for ever, unless it is started again. -/
theorem modset_stop_counterexample : ∃ s, run (init 1) [.start, .fire 0, .set 7 200, .stop] = some s ∧ ∀ es s', .start ∉ es → run s es = some s' → .returned 7 ∉ s'.log := by
  refine ⟨(run (init 1) [.start, .fire 0, .set 7 200, .stop]).getD (init 0), by decide +kernel, ?_⟩
  have key : ∀ (es : List Event) (s s' : State), .start ∉ es → s.armed = false → s.m.set = true → .returned 7 ∉ s.log → run s es = some s' → .returned 7 ∉ s'.log := by
    intro es
    induction es with
    | nil => intro s s' _ _ _ h hr; cases hr; exact h
    | cons e es ih =>
      intro s s' hst ha hset h hr
      have hst' : Event.start ∉ es := fun hh => hst (List.mem_cons_of_mem _ hh)
      unfold run at hr
      cases hs : step s e with
      | none => rw [hs] at hr; exact (nomatch hr)
      | some q =>
        rw [hs, Option.bind_some] at hr
        have hq : q.armed = false ∧ q.m.set = true ∧ .returned 7 ∉ q.log := by
          cases e with
          | start => exact absurd (List.mem_cons_self ..) hst
          | stop => cases hs; exact ⟨rfl, hset, h⟩
          | set t d =>
            unfold step at hs
            simp only [] at hs
            split at hs
            · exact (nomatch hs)
            · rw [if_neg (by rw [ha]; decide)] at hs
              cases hs
              exact ⟨ha, rfl, by simp [h]⟩
          | fire w =>
            unfold step at hs
            simp only [] at hs
            rw [if_neg (by rw [ha]; decide)] at hs
            exact (nomatch hs)
          | spurious t =>
            unfold step at hs
            simp only [] at hs
            split at hs
            · cases hs; exact ⟨ha, hset, h⟩
            · exact (nomatch hs)
          | retry t =>
            unfold step at hs
            simp only [] at hs
            split at hs
            · cases hs; exact ⟨ha, hset, h⟩
            · exact (nomatch hs)
        exact ih q s' hst' hq.1 hq.2.1 hq.2.2 hr
  exact fun es s' hst hr => key es _ s' hst (by decide +kernel) (by decide +kernel) (by decide +kernel) hr

/-- C162: of two threads that wait, one is not woken, and waits on however often the timer fires, unless it wakes up by itself or the duty cycle is changed again; what it has asked for is in effect all the time. -/
theorem modset_two_counterexample : ∃ s, run (init 1) [.start, .fire 0, .fire 0, .set 7 100, .set 8 200, .fire 1, .retry 7] = some s ∧ s.log = [.took 1 254, .asked 7 100 true, .asked 8 200 true, .took 40 11, .returned 7] ∧
    ∀ es s', (∀ e ∈ es, e = .start ∨ e = .stop ∨ ∃ n, e = .fire n ∨ e = .retry n) → run s es = some s' → s'.log = s.log ∧ (s'.m.on, s'.m.off) = counts 200 ∧ s'.blocked = [8] := by
  refine ⟨(run (init 1) [.start, .fire 0, .fire 0, .set 7 100, .set 8 200, .fire 1, .retry 7]).getD (init 0), by decide +kernel, by decide +kernel, ?_⟩
  have key : ∀ (es : List Event) (s s' : State), (∀ e ∈ es, e = .start ∨ e = .stop ∨ ∃ n, e = .fire n ∨ e = .retry n) → s.m.set = false → s.woken = [] → run s es = some s' →
      s'.log = s.log ∧ s'.m.on = s.m.on ∧ s'.m.off = s.m.off ∧ s'.blocked = s.blocked := by
    intro es
    induction es with
    | nil => intro s s' _ _ _ hr; cases hr; exact ⟨rfl, rfl, rfl, rfl⟩
    | cons e es ih =>
      intro s s' hes hset hw hr
      unfold run at hr
      cases hs : step s e with
      | none => rw [hs] at hr; exact (nomatch hr)
      | some q =>
        rw [hs, Option.bind_some] at hr
        have hq : q.m.set = false ∧ q.woken = [] ∧ q.log = s.log ∧ q.m.on = s.m.on ∧ q.m.off = s.m.off ∧ q.blocked = s.blocked := by
          rcases hes e (List.mem_cons_self ..) with rfl | rfl | ⟨n, rfl | rfl⟩
          · cases hs; exact ⟨hset, hw, rfl, rfl, rfl, rfl⟩
          · cases hs; exact ⟨hset, hw, rfl, rfl, rfl, rfl⟩
          · unfold step at hs
            simp only [] at hs
            split at hs
            · rw [if_neg (by rw [hset]; simp)] at hs
              cases hs
              obtain ⟨c1, _, c3⟩ := callback_fields s.m
              by_cases hc : s.m.cycle = 0
              · obtain ⟨k1, k2, k3, _⟩ := c3 hc hset
                exact ⟨k1, hw, rfl, k2, k3, rfl⟩
              · rw [c1 (by omega)]
                exact ⟨hset, hw, rfl, rfl, rfl, rfl⟩
            · exact (nomatch hs)
          · unfold step at hs
            simp only [] at hs
            rw [hw, if_neg (by simp)] at hs
            exact (nomatch hs)
        obtain ⟨r1, r2, r3, r4⟩ := ih q s' (fun e he => hes e (List.mem_cons_of_mem _ he)) hq.1 hq.2.1 hr
        exact ⟨r1.trans hq.2.2.1, r2.trans hq.2.2.2.1, r3.trans hq.2.2.2.2.1, r4.trans hq.2.2.2.2.2⟩
  intro es s' hes hr
  obtain ⟨r1, r2, r3, r4⟩ := key es _ s' hes (by decide +kernel) (by decide +kernel) hr
  exact ⟨r1, by rw [r2, r3]; decide +kernel, by rw [r4]; decide +kernel⟩

/-- C162: the counts are taken over in the middle of a cycle: one firing in the output has been on, it is off as long as the new duty cycle has it, and the old cycle is never completed. -/
theorem modset_cycle_counterexample : (run (init 1) [.start, .fire 0, .fire 0, .set 7 200, .fire 0]).map (fun s => (s.log, s.m.state, s.m.cycle)) = some ([.took 1 254, .asked 7 200 true, .took 40 11], false, 11) := by decide +kernel

end Diminuto.Modset
