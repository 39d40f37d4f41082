import Verif.Modulator

/-!
# Property C32: the pulse-width modulator
-/

namespace Diminuto.Modulator

/-- Output level after timer firing number `n + 1`. -/
def output (duty n : Nat) : Bool := (fire (init duty) (n + 1)).state

/-- Number of firings among the first `n` after which the output is on. -/
def onCount (duty n : Nat) : Nat := ((List.range n).filter (output duty)).length

/-- Full statement of C32: some positive number of firings forms a cycle over
which the output is on for exactly `duty/255` of the firings. -/
def ExactDuty (duty : Nat) : Prop :=
  ∃ period, 0 < period ∧ (∀ n, output duty (n + period) = output duty n) ∧
    255 * onCount duty period = duty * period

/-! ## Factoring -/

theorem factorLoop_ratio (ps : List Nat) (on off : Nat)
    (hp : ∀ p ∈ ps, 0 < p) :
    (factorLoop ps (on, off)).1 * off = (factorLoop ps (on, off)).2 * on ∧
    (0 < on → 0 < (factorLoop ps (on, off)).1) ∧ (0 < off → 0 < (factorLoop ps (on, off)).2) ∧
    (factorLoop ps (on, off)).1 ≤ on ∧ (factorLoop ps (on, off)).2 ≤ off := by
  induction ps generalizing on off with
  | nil => simp [factorLoop, Nat.mul_comm]
  | cons p ps ih =>
    have hp0 := hp p (by simp)
    have hps : ∀ q ∈ ps, 0 < q := fun q hq => hp q (by simp [hq])
    unfold factorLoop
    split
    · simp [Nat.mul_comm]
    · split
      · simp [Nat.mul_comm]
      · split
        · exact ih on off hps
        · split
          · exact ih on off hps
          · rename_i h1 h2 h3 h4
            obtain ⟨a, b, c, d, e⟩ := ih (on / p) (off / p) hps
            have e1 : on = p * (on / p) := by
              have := Nat.div_add_mod on p; omega
            have e2 : off = p * (off / p) := by
              have := Nat.div_add_mod off p; omega
            have ho1 : 0 < on / p := Nat.div_pos (by omega) hp0
            have ho2 : 0 < off / p := Nat.div_pos (by omega) hp0
            refine ⟨?_, fun _ => b ho1, fun _ => c ho2,
              Nat.le_trans d (Nat.div_le_self _ _), Nat.le_trans e (Nat.div_le_self _ _)⟩
            generalize factorLoop ps (on / p, off / p) = r at *
            conv => lhs; rw [e2]
            conv => rhs; rw [e1]
            rw [Nat.mul_left_comm, a, Nat.mul_left_comm]

/-- C32 (factoring): reducing the counts preserves their ratio, keeps positive
counts positive and never increases them, for all counts. -/
theorem factor_preserves_ratio (on off : Nat) :
    (factor (on, off)).1 * off = (factor (on, off)).2 * on ∧
    (0 < on → 0 < (factor (on, off)).1) ∧ (0 < off → 0 < (factor (on, off)).2) ∧
    (factor (on, off)).1 ≤ on ∧ (factor (on, off)).2 ≤ off :=
  factorLoop_ratio primes on off (by decide)

/-- Factoring does not reach lowest terms: 17 is not tried and each prime is
divided out once only. -/
theorem factor_not_lowest_terms_counterexample :
    factor (17, 238) = (17, 238) ∧ factor (4, 4) = (2, 2) := by decide

/-! ## The output waveform -/

/-- Steady state with both counts positive, `k` firings into the on (or off) phase. -/
def phase (on off ton toff : Nat) (st : Bool) (k : Nat) : State :=
  { on := on, off := off, cycle := k, ton := ton, toff := toff, state := st, set := false }

theorem fire_succ_start (duty : Nat) (h1 : 0 < (counts duty).1) :
    fire (init duty) 1 =
      phase (counts duty).1 (counts duty).2 (counts duty).1 (counts duty).2 true (counts duty).1 := by
  simp [fire, init, set, callback, phase, h1]

theorem waveform (duty : Nat) (h1 : 0 < (counts duty).1) (h2 : 0 < (counts duty).2) (n : Nat) :
    let on := (counts duty).1
    let off := (counts duty).2
    let r := n % (on + off + 2)
    fire (init duty) (n + 1) =
      if r ≤ on then phase on off on off true (on - r)
      else phase on off on off false (on + off + 1 - r) := by
  intro on off
  induction n with
  | zero =>
    simp only [Nat.zero_mod, Nat.zero_le, if_true, Nat.sub_zero, Nat.zero_add]
    exact fire_succ_start duty h1
  | succ n ih =>
    simp only at ih ⊢
    have hr : n % (on + off + 2) < on + off + 2 := Nat.mod_lt _ (by omega)
    have hmod : (n + 1) % (on + off + 2) =
        if n % (on + off + 2) = on + off + 1 then 0 else n % (on + off + 2) + 1 := by
      rw [Nat.add_mod]
      split
      · rename_i h
        rw [h, Nat.mod_eq_of_lt (show 1 < on + off + 2 by omega)]
        exact Nat.mod_self _
      · rw [Nat.mod_eq_of_lt (show 1 < on + off + 2 by omega), Nat.mod_eq_of_lt (by omega)]
    show callback (fire (init duty) (n + 1)) = _
    rw [ih]
    generalize n % (on + off + 2) = r at *
    by_cases ha : r < on
    · have hm : (n + 1) % (on + off + 2) = r + 1 := by rw [hmod, if_neg (by omega)]
      rw [hm, if_pos (by omega), if_pos (by omega)]
      have : on - r > 0 := by omega
      simp only [callback, phase, this, if_true]
      congr 1
    · by_cases hb : r = on
      · have hm : (n + 1) % (on + off + 2) = on + 1 := by rw [hmod, if_neg (by omega), hb]
        rw [hm, hb, if_pos (by omega), if_neg (by omega)]
        have hoff : off > 0 := h2
        have : on + off + 1 - (on + 1) = off := by omega
        simp [callback, phase, hoff, this]
      · by_cases hc : r = on + off + 1
        · have hm : (n + 1) % (on + off + 2) = 0 := by rw [hmod, if_pos hc]
          rw [hm, if_neg (by omega), if_pos (by omega), hc]
          have hon : on > 0 := h1
          simp [callback, phase, hon]
        · have hm : (n + 1) % (on + off + 2) = r + 1 := by rw [hmod, if_neg hc]
          rw [hm, if_neg (by omega), if_neg (by omega)]
          have : on + off + 1 - r > 0 := by omega
          simp only [callback, phase, this, if_true]
          congr 1

theorem output_eq (duty : Nat) (h1 : 0 < (counts duty).1) (h2 : 0 < (counts duty).2) (n : Nat) :
    output duty n = decide (n % ((counts duty).1 + (counts duty).2 + 2) ≤ (counts duty).1) := by
  unfold output
  have := waveform duty h1 h2 n
  simp only at this
  rw [this]
  split <;> rename_i h <;> simp [phase] <;> omega

theorem counts_pos (duty : Nat) (h0 : 0 < duty) (h255 : duty < 255) :
    0 < (counts duty).1 ∧ 0 < (counts duty).2 := by
  have := factor_preserves_ratio duty (255 - duty)
  unfold counts
  simp only
  rw [if_neg (by omega), if_neg (by omega)]
  exact ⟨this.2.1 h0, this.2.2.1 (by omega)⟩

theorem filter_range_prefix (P : Nat → Bool) (a b : Nat)
    (hP : ∀ n, n < a + b → P n = decide (n < a)) :
    ((List.range (a + b)).filter P).length = a := by
  rw [List.range_add, List.filter_append, List.length_append]
  rw [List.filter_eq_self.mpr, List.filter_eq_nil_iff.mpr]
  · simp
  · intro x hx
    obtain ⟨y, hy, rfl⟩ := List.mem_map.mp hx
    have := List.mem_range.mp hy
    rw [hP _ (by omega)]
    simp
  · intro x hx
    have := List.mem_range.mp hx
    rw [hP _ (by omega)]
    simpa using this

/-- C32, proved part: for every duty cycle strictly between 0 and 255 the output
is periodic with period `on + off + 2` firings, during `on + 1` of which it is on,
where `on : off` is the ratio `duty : 255 - duty`.  Missing: the exact ratio (see
the counterexample below; each phase lasts one firing too long). -/
theorem modulator_cycle_partial (duty : Nat) (h0 : 0 < duty) (h255 : duty < 255) :
    let on := (counts duty).1
    let off := (counts duty).2
    on * (255 - duty) = off * duty ∧ 0 < on ∧ 0 < off ∧
    (∀ n, output duty (n + (on + off + 2)) = output duty n) ∧
    onCount duty (on + off + 2) = on + 1 := by
  intro on off
  obtain ⟨h1, h2⟩ := counts_pos duty h0 h255
  refine ⟨?_, h1, h2, ?_, ?_⟩
  · have := (factor_preserves_ratio duty (255 - duty)).1
    show (counts duty).1 * _ = (counts duty).2 * _
    unfold counts
    simp only
    rw [if_neg (by omega), if_neg (by omega)]
    exact this
  · intro n
    rw [output_eq duty h1 h2, output_eq duty h1 h2, Nat.add_mod_right]
  · unfold onCount
    have e : on + off + 2 = (on + 1) + (off + 1) := by omega
    rw [e]
    apply filter_range_prefix
    intro n hn
    rw [output_eq duty h1 h2, Nat.mod_eq_of_lt (by omega)]
    congr 1
    apply propext
    omega

theorem constant_off (n : Nat) : (fire (init 0) n).state = false ∧ (fire (init 0) n).on = 0 ∧
    (fire (init 0) n).ton = 0 := by
  induction n with
  | zero => decide
  | succ n ih =>
    obtain ⟨a, b, c⟩ := ih
    simp only [fire, callback]
    generalize fire (init 0) n = s at *
    split
    · exact ⟨a, b, c⟩
    · cases hs : s.set <;> simp [a, b, c]

theorem constant_on (n : Nat) : (fire (init 255) (n + 1)).state = true ∧
    (fire (init 255) (n + 1)).off = 0 ∧ (fire (init 255) (n + 1)).toff = 0 := by
  induction n with
  | zero => decide
  | succ n ih =>
    obtain ⟨a, b, c⟩ := ih
    rw [fire]
    generalize fire (init 255) (n + 1) = s at *
    simp only [callback]
    split
    · exact ⟨a, b, c⟩
    · cases hs : s.set <;> simp [a, b, c]

/-- C32 (extremes): duty 0 is off and duty 255 is on after every firing. -/
theorem modulator_extremes (n : Nat) : output 0 n = false ∧ output 255 n = true :=
  ⟨(constant_off (n + 1)).1, (constant_on n).1⟩

theorem exactDuty_zero : ExactDuty 0 := by
  refine ⟨1, by omega, fun n => ?_, by decide⟩
  rw [(modulator_extremes _).1, (modulator_extremes _).1]

/-- A waveform repeated any number of times keeps its on-fraction, so exactness
over one period is exactness over all. -/
theorem onCount_periods (duty : Nat) (h0 : 0 < duty) (h255 : duty < 255) (k : Nat) :
    onCount duty (k * ((counts duty).1 + (counts duty).2 + 2)) = k * ((counts duty).1 + 1) := by
  obtain ⟨_, h1, h2, hper, hcount⟩ := modulator_cycle_partial duty h0 h255
  generalize hP : (counts duty).1 + (counts duty).2 + 2 = P at *
  have hshift : ∀ k n, output duty (n + k * P) = output duty n := by
    intro k
    induction k with
    | zero => intro n; simp
    | succ k ih =>
      intro n
      have : n + (k + 1) * P = (n + k * P) + P := by rw [Nat.add_mul]; omega
      rw [this, hper, ih]
  induction k with
  | zero => simp [onCount]
  | succ k ih =>
    have e : (k + 1) * P = k * P + P := by rw [Nat.add_mul]; omega
    have : onCount duty (k * P + P) = onCount duty (k * P) + onCount duty P := by
      unfold onCount
      rw [List.range_add, List.filter_append, List.length_append, List.filter_map,
        List.length_map]
      congr 2
      apply List.filter_congr
      intro n _
      simp only [Function.comp_apply]
      rw [Nat.add_comm, hshift]
    rw [e, this, ih, hcount, Nat.add_mul]
    omega

/-- C32 is false of the code for every duty cycle strictly between 0 and 255: no
period whatsoever has the exact ratio, because each phase lasts one firing more
than its count. -/
theorem modulator_duty_never_exact_counterexample (duty : Nat) (h0 : 0 < duty) (h255 : duty < 255) :
    ¬ ExactDuty duty := by
  rintro ⟨period, hpos, hper, hratio⟩
  obtain ⟨hr, h1, h2, hper', hcount⟩ := modulator_cycle_partial duty h0 h255
  generalize hP : (counts duty).1 + (counts duty).2 + 2 = P at *
  -- count over `P` periods of length `period` in two ways
  have hshift : ∀ k n, output duty (n + k * period) = output duty n := by
    intro k
    induction k with
    | zero => intro n; simp
    | succ k ih =>
      intro n
      have : n + (k + 1) * period = (n + k * period) + period := by rw [Nat.add_mul]; omega
      rw [this, hper, ih]
  have hmany : ∀ k, onCount duty (k * period) = k * onCount duty period := by
    intro k
    induction k with
    | zero => simp [onCount]
    | succ k ih =>
      have e : (k + 1) * period = k * period + period := by rw [Nat.add_mul]; omega
      have : onCount duty (k * period + period) = onCount duty (k * period) + onCount duty period := by
        unfold onCount
        rw [List.range_add, List.filter_append, List.length_append, List.filter_map,
          List.length_map]
        congr 2
        apply List.filter_congr
        intro n _
        simp only [Function.comp_apply]
        rw [Nat.add_comm, hshift]
      rw [e, this, ih, Nat.add_mul]
      omega
  have c1 := hmany P
  have c2 := onCount_periods duty h0 h255 period
  rw [hP] at c2
  rw [Nat.mul_comm P period, c2] at c1
  -- c1 : period * (on + 1) = P * onCount duty period
  have key : 255 * ((counts duty).1 + 1) = duty * P := by
    have : period * (255 * ((counts duty).1 + 1)) = period * (duty * P) := by
      calc period * (255 * ((counts duty).1 + 1))
          = 255 * (period * ((counts duty).1 + 1)) := by rw [Nat.mul_left_comm]
        _ = 255 * (P * onCount duty period) := by rw [c1]
        _ = P * (255 * onCount duty period) := by rw [Nat.mul_left_comm]
        _ = P * (duty * period) := by rw [hratio]
        _ = period * (duty * P) := by
          rw [Nat.mul_comm P, Nat.mul_assoc, Nat.mul_left_comm, Nat.mul_comm duty P,
            Nat.mul_comm P duty]
    exact Nat.eq_of_mul_eq_mul_left hpos this
  rw [← hP] at key
  -- with on * (255 - duty) = off * duty this forces 255 = 2 * duty
  have hd : (counts duty).1 * 255 = (counts duty).1 * duty + (counts duty).2 * duty := by
    have : 255 = duty + (255 - duty) := by omega
    conv => lhs; rw [this]
    rw [Nat.mul_add, hr]
  have : duty * ((counts duty).1 + (counts duty).2 + 2) =
      (counts duty).1 * duty + (counts duty).2 * duty + 2 * duty := by
    rw [Nat.mul_comm duty, Nat.add_mul, Nat.add_mul]
  omega

-- Non-vacuity and a concrete measurement: duty 15 (5.9 percent) reduces to 1:16
-- and is on for 2 firings out of 19 (10.5 percent).
example : counts 15 = (1, 16) ∧ onCount 15 19 = 2 := by decide

end Diminuto.Modulator
