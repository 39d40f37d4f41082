import Verif.TimeLemmas

/-!
# Properties C44, C45, C51, C63, C64 and C65: Frequency and Time
-/

namespace Diminuto.Time

/-! ## C44: decomposition of tick counts -/

/-- C44: `diminuto_time_separate`, for every tick count but the least: the whole seconds
are the floor, the fraction is not negative and less than a second, and together they are the tick
count. -/
theorem time_separate_exact (t : Int) (h : Fits t) (hm : t ≠ -9223372036854775808) :
    ∃ seconds fraction, separate t = some (seconds, fraction) ∧
      0 ≤ fraction ∧ fraction < 1000000000 ∧ seconds * 1000000000 + fraction = t := by
  have ha : Fits (if t < 0 then -t else t) := by
    unfold Fits at *
    split <;> omega
  unfold separate
  rw [wholeseconds_eq t h, Option.bind_some, fits_abs h hm, Option.bind_some, fractional_eq _ ha,
    Option.bind_some]
  by_cases h0 : t ≥ 0
  · rw [if_pos h0, if_neg (by omega : ¬ t < 0), tdiv_eq _ _ (by decide), tmod_eq _ _ (by decide), if_pos h0,
      if_pos h0]
    refine ⟨_, _, rfl, ?_, ?_, ?_⟩ <;> omega
  · rw [if_neg h0, if_pos (by omega : t < 0), tdiv_eq _ _ (by decide), tmod_eq _ _ (by decide),
      if_neg (by omega : ¬ 0 ≤ t), if_pos (by omega : 0 ≤ -t)]
    by_cases hf : -t % 1000000000 = 0
    · rw [if_pos hf]
      refine ⟨_, _, rfl, ?_, ?_, ?_⟩ <;> omega
    · rw [if_neg hf, chk_of (by unfold Fits at *; omega), Option.map_some]
      refine ⟨_, _, rfl, ?_, ?_, ?_⟩ <;> (unfold frequency; omega)

/-- C44: recombining with `diminuto_frequency_seconds2ticks` gives the tick count back, except
within a second of the least tick count, where it overflows. -/
theorem time_recombine (t : Int) (h : Fits t) (hm : -9223372035854775808 ≤ t) :
    ∃ seconds fraction, separate t = some (seconds, fraction) ∧
      seconds2ticks seconds fraction frequency = some t := by
  obtain ⟨s, f, hs, h1, h2, h3⟩ := time_separate_exact t h (by omega)
  refine ⟨s, f, hs, ?_⟩
  unfold Fits at h
  unfold seconds2ticks units2ticks
  rw [if_neg (by decide), if_pos (by decide), units_one, Option.bind_some,
    chk_of (by unfold Fits; omega), Option.bind_some, if_neg (by decide), if_neg (by decide),
    Option.bind_some, h3, chk_of h]

/-- C44: `diminuto_time_duration`: sign, all fields in range, and together the magnitude. -/
theorem time_duration_exact (t : Int) (h : Fits t) (hm : t ≠ -9223372036854775808) :
    ∃ d, duration t = some d ∧
      0 ≤ d.tick ∧ d.tick < 1000000000 ∧ 0 ≤ d.second ∧ d.second < 60 ∧ 0 ≤ d.minute ∧ d.minute < 60 ∧
      0 ≤ d.hour ∧ d.hour < 24 ∧ 0 ≤ d.day ∧ d.day ≤ 106751 ∧
      (d.sign = 1 ∨ d.sign = -1) ∧
      d.sign * ((((d.day * 24 + d.hour) * 60 + d.minute) * 60 + d.second) * 1000000000 + d.tick) = t := by
  have key : ∀ u : Int, 0 ≤ u → u ≤ 9223372036854775807 → ∀ g : Int,
      (⟨g, u.tdiv (frequency * 60 * 60 * 24), (u.tmod (frequency * 60 * 60 * 24)).tdiv (frequency * 60 * 60),
        ((u.tmod (frequency * 60 * 60 * 24)).tmod (frequency * 60 * 60)).tdiv (frequency * 60),
        (((u.tmod (frequency * 60 * 60 * 24)).tmod (frequency * 60 * 60)).tmod (frequency * 60)).tdiv frequency,
        (((u.tmod (frequency * 60 * 60 * 24)).tmod (frequency * 60 * 60)).tmod (frequency * 60)).tmod
          frequency⟩ : Duration) =
      ⟨g, u / 86400000000000, u % 86400000000000 / 3600000000000,
        u % 86400000000000 % 3600000000000 / 60000000000,
        u % 86400000000000 % 3600000000000 % 60000000000 / 1000000000,
        u % 86400000000000 % 3600000000000 % 60000000000 % 1000000000⟩ := by
    intro u h1 h2 g
    have e1 : frequency * 60 * 60 * 24 = 86400000000000 := by decide
    have e2 : frequency * 60 * 60 = 3600000000000 := by decide
    have e3 : frequency * 60 = 60000000000 := by decide
    have e4 : frequency = 1000000000 := by decide
    rw [e1, e2, e3, e4]
    rw [Int.tdiv_eq_ediv_of_nonneg h1, Int.tmod_eq_emod_of_nonneg h1,
      Int.tdiv_eq_ediv_of_nonneg (by omega), Int.tmod_eq_emod_of_nonneg (by omega),
      Int.tdiv_eq_ediv_of_nonneg (by omega), Int.tmod_eq_emod_of_nonneg (by omega),
      Int.tdiv_eq_ediv_of_nonneg (by omega), Int.tmod_eq_emod_of_nonneg (by omega)]
  unfold Fits at h
  unfold duration
  by_cases h0 : t < 0
  · have e : (if t < 0 then chk (-t) else some t) = some (-t) := by
      rw [if_pos h0, chk_of (by unfold Fits; omega)]
    rw [e, Option.map_some]
    refine ⟨_, congrArg some (key (-t) (by omega) (by omega) _), ?_⟩
    simp only [if_pos h0]
    refine ⟨?_, ?_, ?_, ?_, ?_, ?_, ?_, ?_, ?_, ?_, Or.inr trivial, ?_⟩ <;> omega
  · have e : (if t < 0 then chk (-t) else some t) = some t := if_neg h0
    rw [e, Option.map_some]
    refine ⟨_, congrArg some (key t (by omega) (by omega) _), ?_⟩
    simp only [if_neg h0]
    refine ⟨?_, ?_, ?_, ?_, ?_, ?_, ?_, ?_, ?_, ?_, Or.inl trivial, ?_⟩ <;> omega

example : separate (-1) = some (-1, 999999999) ∧ separate (-1000000000) = some (-1, 0) ∧
    duration (-90061000000001) = some ⟨-1, 1, 1, 1, 1, 1⟩ := by decide

/-- The one excluded: the magnitude of the least tick count overflows. -/
theorem time_separate_overflow :
    separate (-9223372036854775808) = none ∧ duration (-9223372036854775808) = none := by decide

/-! ## C45: conversion between frequencies -/

/-- C45, the part that holds: for a frequency that divides the tick frequency, a number of ticks that is
not negative is converted to the floor of the exact quotient, and a number of units (of either sign) is
recovered from its number of ticks.  Missing: negative tick counts and other
frequencies, for which the claim is false. -/
theorem frequency_conversion_partial (hertz : Int) (h0 : 0 < hertz) (hd : hertz ∣ 1000000000) :
    (∀ t, 0 ≤ t → Fits t → ticks2units t hertz = some (t * hertz / 1000000000)) ∧
    (∀ u t, Fits u → units2ticks u hertz = some t → ticks2units t hertz = some u ∧ t * hertz = u * 1000000000) := by
  obtain ⟨q, hq⟩ := hd
  have hq0 : 0 < q := by
    rcases Int.lt_or_le 0 q with h | h
    · exact h
    · have := Int.mul_nonpos_of_nonneg_of_nonpos (Int.le_of_lt h0) h
      omega
  have hle : hertz ≤ 1000000000 := Int.le_of_dvd (by decide) ⟨q, hq⟩
  have hq1 : q ≤ 1000000000 := Int.le_of_dvd (by decide) ⟨hertz, by rw [Int.mul_comm]; exact hq⟩
  have hf : frequency = hertz * q := hq
  have hdiv : hertz < frequency → div? frequency hertz = some q := by
    intro _
    unfold div?
    rw [if_neg (by omega), hf, Int.mul_tdiv_cancel_left _ (by omega)]
    exact chk_of (by unfold Fits; omega)
  have hF : frequency = 1000000000 := rfl
  constructor
  · intro t ht hfit
    have hval : t * hertz / 1000000000 = t / q := by
      rw [hq, Int.mul_comm t hertz, Int.mul_ediv_mul_of_pos _ _ h0]
    rw [hval]
    unfold ticks2units
    rw [if_neg (by omega)]
    by_cases hlt : hertz < frequency
    · rw [if_pos hlt, hdiv hlt, Option.bind_some, div?, if_neg (by omega),
        Int.tdiv_eq_ediv_of_nonneg ht]
      apply chk_of
      have h1 : 0 ≤ t / q := Int.ediv_nonneg ht (by omega)
      have h2 : t / q ≤ t := Int.ediv_le_self _ ht
      unfold Fits at *
      omega
    · rw [if_neg hlt]
      have : q = 1 := by
        have e : hertz = 1000000000 := by omega
        rw [e] at hq
        omega
      rw [this, Int.ediv_one]
  · intro u t hu ht
    unfold units2ticks at ht
    rw [if_neg (by omega)] at ht
    unfold ticks2units
    rw [if_neg (by omega)]
    by_cases hlt : hertz < frequency
    · rw [if_pos hlt, hdiv hlt, Option.bind_some] at ht
      obtain ⟨rfl, hfit⟩ := chk_some ht
      rw [if_pos hlt, hdiv hlt, Option.bind_some, div?, if_neg (by omega),
        Int.mul_tdiv_cancel _ (by omega)]
      refine ⟨chk_of hu, ?_⟩
      rw [hq, Int.mul_assoc, Int.mul_comm q]
    · rw [if_neg hlt] at ht ⊢
      have e : hertz = 1000000000 := by omega
      simp only [Option.some.injEq] at ht
      rw [ht, e]
      exact ⟨rfl, rfl⟩

example : ticks2units 1999999999 1000 = some 1999 ∧ units2ticks (-5) 1000 = some (-5000000) ∧
    (1000 : Int) ∣ 1000000000 := ⟨by decide, by decide, 1000000, rfl⟩

/-- C45 is false for negative tick counts, which are rounded towards zero, and for frequencies
that do not divide the tick frequency, where the result can be too large (three units of a third
of a second in less than a second). -/
theorem frequency_conversion_counterexample :
    ticks2units (-1) 1000 = some 0 ∧ (-1 : Int) * 1000 / 1000000000 = -1 ∧
    ticks2units 999999999 3 = some 3 ∧ (999999999 : Int) * 3 / 1000000000 = 2 := by decide

/-- C45: a frequency of zero, or a negative one beyond the tick frequency, divides by zero. -/
theorem frequency_zero_counterexample :
    ticks2units 5 0 = none ∧ ticks2units 5 (-1000000001) = none := by decide

/-! ## C64: rounding -/

/-- C64: rounding up gives the multiple of the period nearest to the value on the side away from zero,
rounding down the one on the side towards zero; both leave multiples alone.  (Both work on the
magnitude: a negative value is not rounded up but away from zero.) -/
theorem frequency_round_exact (t hertz : Int) (ht : Fits t) (h0 : 0 < hertz) (hh : Fits hertz)
    (ho : Fits (t - hertz) ∧ Fits (t + hertz)) :
    ∃ u d, roundup t hertz = some u ∧ rounddown t hertz = some d ∧
      hertz ∣ u ∧ hertz ∣ d ∧
      (0 ≤ t → d ≤ t ∧ t < d + hertz ∧ t ≤ u ∧ u < t + hertz) ∧
      (t < 0 → t ≤ d ∧ d - hertz < t ∧ u ≤ t ∧ t - hertz < u) := by
  have hmd : t.tmod hertz = t - hertz * t.tdiv hertz := by
    have := Int.mul_tdiv_add_tmod t hertz
    omega
  have hdt : hertz ∣ t - t.tmod hertz := ⟨t.tdiv hertz, by omega⟩
  have hdiv : mod? t hertz = some (t.tmod hertz) := by
    unfold mod? div?
    rw [if_neg (by omega), chk_of, Option.map_some]
    rw [tdiv_eq _ _ h0]
    unfold Fits at *
    split
    · rename_i h
      have h1 := Int.ediv_nonneg h (Int.le_of_lt h0)
      have h2 := Int.ediv_le_self hertz h
      omega
    · rename_i h
      have h1 := Int.ediv_nonneg (a := -t) (by omega) (Int.le_of_lt h0)
      have h2 := Int.ediv_le_self hertz (a := -t) (by omega)
      by_cases hm : -t / hertz ≤ 9223372036854775807
      · omega
      · omega
  have hr : (0 ≤ t → 0 ≤ t.tmod hertz ∧ t.tmod hertz < hertz) ∧
      (t < 0 → t.tmod hertz ≤ 0 ∧ -hertz < t.tmod hertz) := by
    rw [tmod_eq _ _ h0]
    constructor
    · intro h
      rw [if_pos h]
      exact ⟨Int.emod_nonneg _ (by omega), Int.emod_lt_of_pos _ h0⟩
    · intro h
      rw [if_neg (by omega)]
      have := Int.emod_nonneg (-t) (b := hertz) (by omega)
      have := Int.emod_lt_of_pos (-t) h0
      omega
  unfold roundup rounddown
  rw [hdiv, Option.bind_some, Option.bind_some]
  by_cases hz : t.tmod hertz = 0
  · rw [if_pos hz, if_pos hz]
    rw [hz, Int.sub_zero] at hdt
    exact ⟨t, t, rfl, rfl, hdt, hdt, fun _ => by omega, fun _ => by omega⟩
  · rw [if_neg hz, if_neg hz]
    unfold Fits at *
    by_cases hn : t < 0
    · have h2 := hr.2 hn
      rw [chk_of (by unfold Fits; omega), Option.bind_some, if_pos hn,
        chk_of (x := -hertz) (by unfold Fits; omega), Option.bind_some,
        chk_of (x := t - t.tmod hertz + -hertz) (by unfold Fits; omega)]
      refine ⟨_, _, rfl, rfl, ?_, hdt, fun h => by omega, fun _ => by omega⟩
      exact Int.dvd_add hdt (Int.dvd_neg.2 (Int.dvd_refl _))
    · have h2 := hr.1 (by omega)
      rw [chk_of (by unfold Fits; omega), Option.bind_some, if_neg hn, Option.bind_some,
        chk_of (x := t - t.tmod hertz + hertz) (by unfold Fits; omega)]
      refine ⟨_, _, rfl, rfl, ?_, hdt, fun h => by omega, fun _ => by omega⟩
      exact Int.dvd_add hdt (Int.dvd_refl _)

example : roundup 7 5 = some 10 ∧ rounddown 7 5 = some 5 ∧ roundup (-7) 5 = some (-10) ∧
    rounddown (-7) 5 = some (-5) ∧ Fits ((7 : Int) - 5) ∧ Fits ((7 : Int) + 5) := by
  unfold Fits; decide

/-! ## C65: names of time zones -/

/-- C65: a whole number of hours has the name of that zone, anything else is J. -/
theorem time_zonename_exact (t : Int) :
    zonename t = if 3600000000000 ∣ t then militaryZone (t / 3600000000000) else 'J' := by
  unfold zonename
  have e : frequency * 3600 = 3600000000000 := by decide
  simp only [e]
  have hm : t.tmod 3600000000000 = 0 ↔ (3600000000000 : Int) ∣ t := by
    rw [Int.dvd_iff_tmod_eq_zero]
  by_cases hd : (3600000000000 : Int) ∣ t
  · rw [if_pos (hm.2 hd), if_pos hd, Int.tdiv_eq_ediv_of_dvd hd]
    generalize t / 3600000000000 = h
    have hl : (NAMES.length : Int) = 25 := rfl
    rw [hl]
    by_cases hr : 0 ≤ h + 12 ∧ h + 12 < 25
    · rw [if_pos hr]
      have table : ∀ n : Fin 25, NAMES.getD n.val 'J' = militaryZone ((n.val : Int) - 12) := by decide
      have := table ⟨(h + 12).toNat, by omega⟩
      simp only at this
      rw [this]
      congr 1
      omega
    · rw [if_neg hr]
      unfold militaryZone
      rw [if_neg (by omega), if_neg (by omega), if_neg (by omega), if_neg (by omega)]
  · rw [if_neg (fun h => hd (hm.1 h)), if_neg hd]

example : zonename (-7 * 3600000000000) = 'T' ∧ zonename 0 = 'Z' ∧ zonename (10 * 3600000000000) = 'K' ∧
    zonename (5 * 3600000000000 + 1800000000000) = 'J' := by decide

/-! ## C63: calendar time and back -/

/-- C63: converting a tick count to calendar fields in UTC and back gives the tick count. -/
theorem time_zulu_epoch_partial (c : Libc) (hc : c.Inverse) (t : Int) (h : Fits t)
    (hm : -9223372035854775808 ≤ t) (f : Fields) (hz : zulu c t = some (some f)) :
    epoch c f 0 0 = some t ∧ 0 ≤ f.tick ∧ f.tick < 1000000000 := by
  obtain ⟨s, fr, hs, h1, h2, h3⟩ := time_separate_exact t h (by omega)
  unfold zulu at hz
  rw [hs, Option.map_some] at hz
  simp only [Option.some.injEq, Option.map_eq_some_iff] at hz
  obtain ⟨tm, htm, rfl⟩ := hz
  refine ⟨?_, h1, h2⟩
  unfold epoch
  simp only [Int.add_sub_cancel]
  rw [hc.1 s tm htm]
  simp only []
  unfold Fits at h
  have e : seconds2ticks s 0 1 = some (s * 1000000000) := by
    unfold seconds2ticks units2ticks
    rw [if_neg (by decide), if_pos (by decide), units_one, Option.bind_some,
      chk_of (by unfold Fits; omega), Option.bind_some, if_neg (by decide), if_pos (by decide),
      Option.bind_some]
    simp only [Int.zero_mul]
    rw [chk_of (x := 0) (by unfold Fits; omega), Option.bind_some, Int.add_zero]
    exact chk_of (by unfold Fits; omega)
  rw [e, Option.bind_some, if_neg, Int.sub_zero, chk_of (by unfold Fits; omega), Option.bind_some,
    Int.sub_zero, chk_of (by unfold Fits; omega), Option.bind_some, h3, chk_of h]
  rintro ⟨rfl, hne⟩
  have := hc.2 tm htm
  subst this
  exact hne ⟨rfl, rfl, rfl, rfl, rfl, rfl⟩

/-- C63 in the Gregorian calendar: for every tick count but those within a second of the least
one, the fields are returned and converted back. -/
theorem time_zulu_epoch_gregorian (t : Int) (h : Fits t) (hm : -9223372035854775808 ≤ t) :
    ∃ f, zulu gregorian t = some (some f) ∧ epoch gregorian f 0 0 = some t := by
  obtain ⟨s, fr, hs, _⟩ := time_separate_exact t h (by omega)
  have : ∃ f, zulu gregorian t = some (some f) := by
    unfold zulu
    rw [hs]
    exact ⟨_, rfl⟩
  obtain ⟨f, hf⟩ := this
  exact ⟨f, hf, (time_zulu_epoch_partial gregorian gregorian_inverse t h hm f hf).1⟩

example : zulu gregorian (-1) = some (some ⟨1969, 12, 31, 23, 59, 59, 999999999⟩) ∧
    zulu gregorian 951782400000000000 = some (some ⟨2000, 2, 29, 0, 0, 0, 0⟩) := by decide

/-- C63 fails within a second of the least tick count: the conversion of the least one into fields overflows, and the fields of the next one are those of a time whose whole seconds, as
ticks, overflow when they are converted back. -/
theorem time_zulu_epoch_counterexample :
    (¬ ∀ t, Fits t → ∃ f, zulu gregorian t = some (some f)) ∧
    ¬ ∀ t f, Fits t → zulu gregorian t = some (some f) → epoch gregorian f 0 0 = some t := by
  refine ⟨fun h => ?_, fun h => ?_⟩
  · obtain ⟨f, hf⟩ := h (-9223372036854775808) (by unfold Fits; omega)
    have : zulu gregorian (-9223372036854775808) = none := by decide
    rw [this] at hf
    cases hf
  · have h1 : zulu gregorian (-9223372036854775807) = some (some ⟨1677, 9, 21, 0, 12, 43, 145224193⟩) := by decide
    have h2 := h _ _ (by unfold Fits; omega) h1
    have h3 : epoch gregorian ⟨1677, 9, 21, 0, 12, 43, 145224193⟩ 0 0 = none := by decide
    rw [h3] at h2
    cases h2

/-! ## C51: the logical clock -/

/-- C51: in every sequence of calls, by whatever threads, the call number `i` (from zero) returns
`i` modulo 2^64, and reports overflow exactly if the clock has wrapped since the last reset
before it (or since the beginning). -/
theorem logical_clock_exact (l : List Call) (i : Nat) (r : BitVec 64 × Bool)
    (h : (logicalRun .init l).1[i]? = some r) :
    r.1 = BitVec.ofNat 64 i ∧
    ∃ pre post, l = pre ++ .logical :: post ∧ calls pre = i ∧
      (r.2 = true ↔ (if .reset ∈ pre then beforeReset pre else 0) / 2 ^ 64 < i / 2 ^ 64) := by
  have := logical_run_after l 0 0 .init ⟨rfl, by simp [Logical.init], Nat.le_refl _⟩ i r h
  simpa using this

/-- C51: until 2^64 calls the values are distinct and increasing in call order, and no error is
reported; without a reset every call after these reports overflow. -/
theorem logical_clock_unique (l : List Call) (i j : Nat) (r q : BitVec 64 × Bool)
    (hr : (logicalRun .init l).1[i]? = some r) (hq : (logicalRun .init l).1[j]? = some q)
    (hij : i < j) :
    (j < 2 ^ 64 → r.1 < q.1 ∧ q.2 = false) ∧ (2 ^ 64 ≤ j → .reset ∉ l → q.2 = true) := by
  obtain ⟨r1, _⟩ := logical_clock_exact l i r hr
  obtain ⟨q1, pre, post, hl, hc, hq2⟩ := logical_clock_exact l j q hq
  constructor
  · intro hj
    constructor
    · rw [r1, q1, BitVec.lt_def, BitVec.toNat_ofNat, BitVec.toNat_ofNat, Nat.mod_eq_of_lt (by omega),
        Nat.mod_eq_of_lt hj]
      exact hij
    · have : ¬ q.2 = true := by
        rw [hq2, Nat.div_eq_of_lt hj]
        omega
      simpa using this
  · intro hj hn
    rw [hq2, if_neg (fun h => hn (by rw [hl]; simp [h]))]
    have := Nat.div_le_div_right (c := 2 ^ 64) hj
    rw [Nat.div_self (by decide)] at this
    omega

example : (logicalRun .init [.logical, .logical, .reset, .logical]).1 =
    [(0, false), (1, false), (2, false)] := by decide

/-- At the wrap: the last value, and then the first one again, with the error. -/
example : (logicalRun ⟨BitVec.ofNat 64 (2 ^ 64 - 1), false⟩ [.logical, .logical, .reset, .logical]).1 =
    [(BitVec.ofNat 64 (2 ^ 64 - 1), false), (0, true), (1, false)] := by decide

end Diminuto.Time
