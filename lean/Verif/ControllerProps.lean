import Verif.Controller

/-!
# Properties C33 and C55: the PID controller
-/

namespace Diminuto.Controller

/-- The limits are ordered. -/
def Ordered (p : Params) : Prop :=
  p.minimum ≤ p.lower ∧ p.lower ≤ p.upper ∧ p.upper ≤ p.maximum

/-- What a legal output is. -/
def LegalOutput (p : Params) (x : Int) : Prop :=
  p.minimum ≤ x ∧ x ≤ p.maximum ∧
  ¬ (p.minimum < x ∧ x < p.lower) ∧ ¬ (p.upper < x ∧ x < p.maximum)

theorem noFly_legal (p : Params) (h : Ordered p) (x : Int) : LegalOutput p (noFly p (clamp p x)) := by
  obtain ⟨h1, h2, h3⟩ := h
  unfold LegalOutput noFly clamp
  repeat' split
  all_goals omega

/-- A successful call, with all its intermediate values. -/
theorem controller_some {p : Params} {s s' : State} {t i o x : Int}
    (h : controller p s t i o = some (s', x)) :
    ∃ sum, x = noFly p (clamp p (wrap16 sum)) ∧ sum = o + s'.delta ∧ chk sum = some sum ∧
      ∃ raw, limitWindup p.windup raw = some s'.integral := by
  simp only [controller, bind, Option.bind_eq_some_iff, Option.some.injEq, Prod.mk.injEq] at h
  obtain ⟨sample, _, prop, _, tot, _, gi, _, raw, _, integral, hint, tot2, _, diff, _, gd, _,
    tot3, _, delta, _, sum, hsum, hs, hx⟩ := h
  subst hs
  have hs' : sum = o + delta := by
    unfold chk at hsum; split at hsum <;> simp_all
  exact ⟨sum, hx.symm, hs', by rw [hs'] at hsum ⊢; exact hsum, raw, hint⟩

theorem limitWindup_bound {w raw i : Int} (hw : 0 ≤ w) (h : limitWindup w raw = some i) :
    -w ≤ i ∧ i ≤ w := by
  unfold limitWindup chk at h
  split at h
  · simp at h; omega
  · split at h
    · simp only [bind, Option.bind] at h
      split at h <;> simp at h <;> omega
    · simp [bind] at h

/-- C33: whatever the state, target, input and previous output, a call that does
not overflow returns an output inside the limits and outside both no-fly zones,
and leaves the integral within the wind-up bound. -/
theorem controller_output_legal (p : Params) (s s' : State) (t i o x : Int)
    (hord : Ordered p) (hw : 0 ≤ p.windup)
    (h : controller p s t i o = some (s', x)) :
    LegalOutput p x ∧ -p.windup ≤ s'.integral ∧ s'.integral ≤ p.windup := by
  obtain ⟨sum, hx, _, _, raw, hraw⟩ := controller_some h
  rw [hx]
  exact ⟨noFly_legal p hord _, limitWindup_bound hw hraw⟩

/-- C33 over histories: all outputs of any run without overflow are legal. -/
theorem controller_run_legal_partial (p : Params) (hord : Ordered p) (hw : 0 ≤ p.windup)
    (calls : List (Int × Int × Int)) (s s' : State) (xs : List Int)
    (h : run p s calls = some (s', xs)) : ∀ x ∈ xs, LegalOutput p x := by
  induction calls generalizing s xs with
  | nil => simp [run] at h; simp [h.2]
  | cons c rest ih =>
    obtain ⟨t, i, o⟩ := c
    simp only [run, bind, Option.bind_eq_some_iff, Option.some.injEq, Prod.mk.injEq] at h
    obtain ⟨⟨s1, x1⟩, h1, ⟨s2, xs2⟩, h2, hs2, hxs⟩ := h
    subst hxs
    subst hs2
    intro x hx
    rcases List.mem_cons.mp hx with rfl | hx
    · exact (controller_output_legal p s s1 t i o _ hord hw h1).1
    · exact ih s1 xs2 h2 x hx

/-! ## Freedom from overflow -/

/-- An `int16_t`. -/
def Short (x : Int) : Prop := -32768 ≤ x ∧ x ≤ 32767

/-- Magnitude of a gain as used for the overflow bound: at least one. -/
def mag (g : Gain) : Int := max 1 (max g.numerator (-g.numerator))

/-- Gains and wind-up small enough that no intermediate value can overflow. -/
def Tame (p : Params) : Prop :=
  1 ≤ p.kp.denominator ∧ 1 ≤ p.ki.denominator ∧ 1 ≤ p.kd.denominator ∧ 1 ≤ p.kc.denominator ∧
  0 ≤ p.windup ∧ p.windup + 65535 * mag p.ki ≤ 2147483647 ∧
  (65535 * mag p.kp + p.windup + 65535 * mag p.kd) * mag p.kc + 32768 ≤ 2147483647

theorem chk_of {x : Int} (h1 : -2147483648 ≤ x) (h2 : x ≤ 2147483647) : chk x = some x := by
  unfold chk; rw [if_pos ⟨h1, h2⟩]

theorem mag_pos (g : Gain) : 1 ≤ mag g := by unfold mag; omega

theorem abs_mul_le {v n B M : Int} (hv : -B ≤ v ∧ v ≤ B) (hn : -M ≤ n ∧ n ≤ M) (hB : 0 ≤ B)
    (hM : 0 ≤ M) : -(B * M) ≤ v * n ∧ v * n ≤ B * M := by
  obtain ⟨v1, v2⟩ := hv
  obtain ⟨n1, n2⟩ := hn
  have h : (v * n).natAbs ≤ (B * M).natAbs := by
    rw [Int.natAbs_mul, Int.natAbs_mul]
    exact Nat.mul_le_mul (by omega) (by omega)
  have hBM : 0 ≤ B * M := Int.mul_nonneg hB hM
  omega

theorem tdiv_bound {x d B : Int} (hx : -B ≤ x ∧ x ≤ B) :
    -B ≤ x.tdiv d ∧ x.tdiv d ≤ B := by
  have h : (x.tdiv d).natAbs ≤ x.natAbs := by
    rw [Int.natAbs_tdiv]
    exact Nat.div_le_self _ _
  omega

theorem applyGain_tame (v : Int) (g : Gain) (B : Int) (hd : 1 ≤ g.denominator)
    (hB : 0 ≤ B) (hv : -B ≤ v ∧ v ≤ B) (hfit : B * mag g ≤ 2147483647) :
    ∃ r, applyGain v g = some r ∧ -(B * mag g) ≤ r ∧ r ≤ B * mag g := by
  have hm := mag_pos g
  have hBm : B ≤ B * mag g := by
    have := Int.mul_le_mul_of_nonneg_left hm hB
    omega
  have hmul : -(B * mag g) ≤ v * g.numerator ∧ v * g.numerator ≤ B * mag g :=
    abs_mul_le hv (by unfold mag; omega) hB (by omega)
  unfold applyGain
  rw [if_neg (by omega)]
  split
  · exact ⟨0, rfl, by omega, by omega⟩
  · split
    · exact ⟨v, rfl, by omega, by omega⟩
    · split
      · exact ⟨_, chk_of (by omega) (by omega), hmul.1, hmul.2⟩
      · split
        · have := tdiv_bound (d := g.denominator) hv
          exact ⟨_, chk_of (by omega) (by omega), by omega, by omega⟩
        · have hq := tdiv_bound (d := g.denominator) hmul
          refine ⟨(v * g.numerator).tdiv g.denominator, ?_, by omega, by omega⟩
          rw [chk_of (by omega) (by omega)]
          exact chk_of (by omega) (by omega)

/-- State invariant: once initialised, the stored samples are 16-bit and the
integral is within the wind-up bound. -/
def Bounded (p : Params) (s : State) : Prop :=
  s.initialized = true →
    Short s.sample ∧ Short s.previous ∧ -p.windup ≤ s.integral ∧ s.integral ≤ p.windup

theorem controller_tame_step (p : Params) (hp : Tame p) (s : State) (hs : Bounded p s)
    (t i o : Int) (ht : Short t) (hi : Short i) (ho : Short o) :
    ∃ s' x, controller p s t i o = some (s', x) ∧ Bounded p s' := by
  obtain ⟨d1, d2, d3, d4, w0, wi, wt⟩ := hp
  have m1 := mag_pos p.kp
  have m2 := mag_pos p.ki
  have m3 := mag_pos p.kd
  have m4 := mag_pos p.kc
  have hs0 : Short (prepare s i).sample ∧ Short (prepare s i).previous ∧
      -p.windup ≤ (prepare s i).integral ∧ (prepare s i).integral ≤ p.windup := by
    unfold prepare
    cases hinit : s.initialized
    · simp only [Bool.not_false, if_true]
      exact ⟨hi, hi, by omega, by omega⟩
    · simp only [Bool.not_true, Bool.false_eq_true, if_false]
      exact hs hinit
  generalize hprep : prepare s i = s0 at hs0
  obtain ⟨hsam, hprev, hint1, hint2⟩ := hs0
  unfold Short at *
  -- the sample
  have hsample : ∃ q, filtered p s0.sample i = some q ∧ Short q := by
    unfold filtered Short
    cases p.filter
    · exact ⟨i, rfl, hi⟩
    · simp only [if_true, bind]
      rw [chk_of (by omega) (by omega)]
      exact ⟨_, rfl, by omega⟩
  obtain ⟨q, hq, hq1, hq2⟩ := hsample
  -- bounds on the products
  generalize hA : 65535 * mag p.kp = A at *
  generalize hBd : 65535 * mag p.kd = D at *
  generalize hI : 65535 * mag p.ki = I at *
  have hA1 : 65535 ≤ A := by omega
  have hD1 : 65535 ≤ D := by omega
  have hsumB : A + p.windup + D ≤ (A + p.windup + D) * mag p.kc := by
    have := Int.mul_le_mul_of_nonneg_left m4 (show 0 ≤ A + p.windup + D by omega)
    omega
  obtain ⟨tot, htot, t1, t2⟩ := applyGain_tame (t - q) p.kp 65535 d1 (by omega)
    ⟨by omega, by omega⟩ (by omega)
  rw [hA] at t1 t2
  obtain ⟨gi, hgi, g1, g2⟩ := applyGain_tame (t - q) p.ki 65535 d2 (by omega)
    ⟨by omega, by omega⟩ (by omega)
  rw [hI] at g1 g2
  have hlim : ∃ r, limitWindup p.windup (s0.integral + gi) = some r ∧ -p.windup ≤ r ∧
      r ≤ p.windup := by
    unfold limitWindup
    rw [chk_of (by omega) (by omega)]
    split
    · exact ⟨_, rfl, by omega, by omega⟩
    · simp only [bind, Option.bind]
      split
      · exact ⟨_, rfl, by omega, by omega⟩
      · exact ⟨_, rfl, by omega, by omega⟩
  obtain ⟨r, hr, r1, r2⟩ := hlim
  obtain ⟨gd, hgd, d5, d6⟩ := applyGain_tame (q - s0.previous) p.kd 65535 d3 (by omega)
    ⟨by omega, by omega⟩ (by omega)
  rw [hBd] at d5 d6
  obtain ⟨delta, hdelta, e1, e2⟩ := applyGain_tame (tot + r - gd) p.kc (A + p.windup + D) d4
    (by omega) ⟨by omega, by omega⟩ (by omega)
  refine ⟨{ sample := q, proportional := t - q, integral := r,
            differential := q - s0.previous, total := tot + r - gd, delta := delta,
            previous := q, initialized := true }, noFly p (clamp p (wrap16 (o + delta))), ?_, ?_⟩
  · simp only [controller, bind, hprep, hq, Option.bind_some]
    rw [chk_of (x := t - q) (by omega) (by omega)]
    simp only [Option.bind_some, htot, hgi]
    rw [chk_of (x := s0.integral + gi) (by omega) (by omega)]
    simp only [Option.bind_some, hr]
    rw [chk_of (x := tot + r) (by omega) (by omega)]
    simp only [Option.bind_some]
    rw [chk_of (x := q - s0.previous) (by omega) (by omega)]
    simp only [Option.bind_some, hgd]
    rw [chk_of (x := tot + r - gd) (by omega) (by omega)]
    simp only [Option.bind_some, hdelta]
    rw [chk_of (x := o + delta) (by omega) (by omega)]
    rfl
  · intro _
    exact ⟨⟨hq1, hq2⟩, ⟨hq1, hq2⟩, r1, r2⟩

/-- C33: with gains and wind-up limit small enough (`Tame`), no history of calls
with 16-bit arguments from the initial state overflows. -/
theorem controller_tame_no_overflow (p : Params) (hp : Tame p) (calls : List (Int × Int × Int))
    (hc : ∀ c ∈ calls, Short c.1 ∧ Short c.2.1 ∧ Short c.2.2) :
    ∃ s xs, run p initState calls = some (s, xs) ∧ xs.length = calls.length := by
  have key : ∀ (calls : List (Int × Int × Int)) (s : State), Bounded p s →
      (∀ c ∈ calls, Short c.1 ∧ Short c.2.1 ∧ Short c.2.2) →
      ∃ s' xs, run p s calls = some (s', xs) ∧ xs.length = calls.length := by
    intro calls
    induction calls with
    | nil => intro s _ _; exact ⟨s, [], rfl, rfl⟩
    | cons c rest ih =>
      intro s hs hc
      obtain ⟨t, i, o⟩ := c
      obtain ⟨ht, hi, ho⟩ := hc (t, i, o) (by simp)
      obtain ⟨s1, x, h1, hb⟩ := controller_tame_step p hp s hs t i o ht hi ho
      obtain ⟨s2, xs, h2, hl⟩ := ih s1 hb (fun c hc' => hc c (by simp [hc']))
      refine ⟨s2, x :: xs, ?_, by simp [hl]⟩
      simp only [run, bind, h1, Option.bind_some, h2]
  exact key calls initState (by intro h; simp [initState] at h) hc

/-- Parameters of the kind the unit test uses: they are ordered and tame, and a
run of three calls gives legal outputs. -/
def sampleParams : Params :=
  { windup := 1000, minimum := -100, maximum := 100, lower := -50, upper := 50,
    kp := ⟨1, 2⟩, ki := ⟨1, 10⟩, kd := ⟨1, 20⟩, kc := ⟨1, 1⟩, filter := true }

example : Ordered sampleParams ∧ Tame sampleParams := by
  unfold Ordered Tame mag sampleParams; decide

example : (run sampleParams initState [(80, 0, 0), (80, 10, 48), (80, 60, 100)]).map (·.2) =
    some [48, 100, 100] := by decide +kernel

/-- One call of the saturated history below. -/
theorem saturated_step (k : Int) (hk0 : 0 ≤ k) (hk : k ≤ 32767) (s : State)
    (hs : (s.initialized = false ∧ k = 0) ∨
      (s.initialized = true ∧ s.sample = -32768 ∧ s.previous = -32768 ∧ s.integral = 65535 * k)) :
    (k < 32767 → ∃ s' x, controller defaultParams s 32767 (-32768) 0 = some (s', x) ∧
      s'.initialized = true ∧ s'.sample = -32768 ∧ s'.previous = -32768 ∧
      s'.integral = 65535 * (k + 1)) ∧
    (k = 32767 → controller defaultParams s 32767 (-32768) 0 = none) := by
  have h0 : (prepare s (-32768)).sample = -32768 ∧ (prepare s (-32768)).previous = -32768 ∧
      (prepare s (-32768)).integral = 65535 * k := by
    unfold prepare
    rcases hs with ⟨h1, h2⟩ | ⟨h1, h2, h3, h4⟩
    · rw [h1]; simp [h2]
    · rw [h1]; simp [h2, h3, h4]
  generalize hprep : prepare s (-32768) = s0 at h0
  obtain ⟨a1, a2, a3⟩ := h0
  have hg : ∀ v, applyGain v ⟨1, 1⟩ = some v := by intro v; rfl
  have hf : filtered defaultParams s0.sample (-32768) = some (-32768) := by rw [a1]; decide
  have hc : controller defaultParams s 32767 (-32768) 0 = (do
      let integral ← chk (65535 * k + 65535)
      let integral ← limitWindup 2147483647 integral
      let total ← chk (65535 + integral)
      let total ← chk total
      let sum ← chk total
      some ({ sample := -32768, proportional := 65535, integral := integral,
              differential := 0, total := total, delta := total,
              previous := -32768, initialized := true },
            noFly defaultParams (clamp defaultParams (wrap16 sum)))) := by
    simp only [controller, bind, hprep, hf, Option.bind_some]
    rw [chk_of (x := 32767 - -32768) (by omega) (by omega)]
    have e1 : defaultParams.kp = ⟨1, 1⟩ := rfl
    have e2 : defaultParams.ki = ⟨1, 1⟩ := rfl
    have e3 : defaultParams.kd = ⟨1, 1⟩ := rfl
    have e4 : defaultParams.kc = ⟨1, 1⟩ := rfl
    have e5 : defaultParams.windup = 2147483647 := rfl
    simp only [e1, e2, e3, e4, e5, hg, Option.bind_some, a2, a3]
    rw [chk_of (x := -32768 - -32768) (by omega) (by omega)]
    simp only [Option.bind_some, Int.sub_self, Int.sub_zero, Int.zero_add]
    rfl
  rw [hc]
  refine ⟨fun hlt => ?_, fun heq => ?_⟩
  · have hl : limitWindup 2147483647 (65535 * k + 65535) = some (65535 * k + 65535) := by
      unfold limitWindup
      rw [if_neg (by omega)]
      simp only [bind, chk_of (x := -2147483647) (by omega) (by omega), Option.bind_some]
      rw [if_neg (by omega)]
    simp only [bind]
    rw [chk_of (x := 65535 * k + 65535) (by omega) (by omega)]
    simp only [Option.bind_some, hl]
    rw [chk_of (x := 65535 + (65535 * k + 65535)) (by omega) (by omega)]
    simp only [Option.bind_some]
    rw [chk_of (x := 65535 + (65535 * k + 65535)) (by omega) (by omega)]
    simp only [Option.bind_some]
    rw [chk_of (x := 65535 + (65535 * k + 65535)) (by omega) (by omega)]
    exact ⟨_, _, rfl, rfl, rfl, rfl, by show 65535 * k + 65535 = _; omega⟩
  · subst heq
    decide

/-- C33 fails without the bound on gains: with the very parameters
`diminuto_controller_init` sets, the call number 32768 of a saturated history
(target 32767, input -32768) overflows the sum of the proportional and integral
terms, which is undefined behaviour.  32767 calls are fine. -/
theorem controller_default_overflow_counterexample :
    (∃ r, run defaultParams initState (List.replicate 32767 (32767, -32768, 0)) = some r) ∧
    run defaultParams initState (List.replicate 32768 (32767, -32768, 0)) = none := by
  have key : ∀ (n : Nat) (k : Nat) (s : State), n + k = 32767 →
      ((s.initialized = false ∧ (k : Int) = 0) ∨
      (s.initialized = true ∧ s.sample = -32768 ∧ s.previous = -32768 ∧
        s.integral = 65535 * (k : Int))) →
      (∃ r, run defaultParams s (List.replicate n (32767, -32768, 0)) = some r) ∧
      run defaultParams s (List.replicate (n + 1) (32767, -32768, 0)) = none := by
    intro n
    induction n with
    | zero =>
      intro k s hk hs
      obtain ⟨_, h⟩ := saturated_step k (by omega) (by omega) s hs
      refine ⟨⟨(s, []), rfl⟩, ?_⟩
      simp only [List.replicate, run, bind, h (by omega), Option.bind_none]
    | succ n ih =>
      intro k s hk hs
      obtain ⟨h, _⟩ := saturated_step k (by omega) (by omega) s hs
      obtain ⟨s', x, hc, h1, h2, h3, h4⟩ := h (by omega)
      obtain ⟨⟨⟨s2, xs⟩, hr⟩, hn⟩ := ih (k + 1) s' (by omega)
        (Or.inr ⟨h1, h2, h3, by rw [h4]; push_cast; rfl⟩)
      constructor
      · refine ⟨(s2, x :: xs), ?_⟩
        rw [List.replicate_succ]
        simp only [run, bind, hc, Option.bind_some, hr]
      · rw [List.replicate_succ]
        simp only [run, bind, hc, Option.bind_some, hn, Option.bind_none]
  exact key 32767 0 initState rfl (Or.inl ⟨rfl, rfl⟩)

/-! ## C55: saturation -/

/-- `y` is the value to which an actuator command `x` is limited: unchanged when
legal, else the bound towards which it errs. -/
def LimitedTo (p : Params) (x y : Int) : Prop :=
  (LegalOutput p x → y = x) ∧
  (x < p.minimum → y = p.minimum) ∧ (p.maximum < x → y = p.maximum) ∧
  (p.minimum < x → x < p.lower → y = p.minimum) ∧
  (p.upper < x → x < p.maximum → y = p.maximum)

theorem limited_noFly (p : Params) (h : Ordered p) (x : Int) :
    LimitedTo p x (noFly p (clamp p x)) := by
  obtain ⟨h1, h2, h3⟩ := h
  unfold LimitedTo LegalOutput noFly clamp
  refine ⟨fun h => ?_, fun h => ?_, fun h => ?_, fun h h' => ?_, fun h h' => ?_⟩ <;>
    (repeat' split) <;> omega

/-- C55, the part that holds: when previous output plus correction fits in 16
bits, the output is that sum limited to the legal range.  Missing: sums outside
16 bits, for which the claim is false (next theorem). -/
theorem controller_saturates_partial (p : Params) (hord : Ordered p) (s s' : State)
    (t i o x : Int) (h : controller p s t i o = some (s', x))
    (hfit : Short (o + s'.delta)) : LimitedTo p (o + s'.delta) x := by
  obtain ⟨sum, hx, hsum, _, _⟩ := controller_some h
  have hw : wrap16 sum = sum := by
    unfold Short at hfit; unfold wrap16; omega
  rw [hx, hw, hsum]
  exact limited_noFly p hord _

example : ∃ s' x, controller sampleParams initState 80 0 90 = some (s', x) ∧
    Short (90 + s'.delta) ∧ s'.delta = 48 ∧ x = 100 := 
  ⟨⟨0, 80, 8, 0, 48, 48, 0, true⟩, 100, by decide +kernel, by unfold Short; decide, rfl, rfl⟩

/-- C55 is false: the sum is converted to 16 bits before it is limited, so that
with the initial parameters a full-scale output of 32767 and a correction of +2
gives -32767 instead of staying at the maximum. -/
theorem controller_saturates_counterexample :
    ∃ s', controller defaultParams initState 1 0 32767 = some (s', -32767) ∧ s'.delta = 2 ∧
      ¬ LimitedTo defaultParams (32767 + s'.delta) (-32767) := by
  refine ⟨⟨0, 1, 1, 0, 2, 2, 0, true⟩, by decide +kernel, rfl, ?_⟩
  intro h
  have := h.2.2.1 (by decide)
  revert this
  decide

end Diminuto.Controller
