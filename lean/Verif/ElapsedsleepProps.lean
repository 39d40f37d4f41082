import Verif.ElapsedsleepLemmas

/-!
# Property C176: the tool that sleeps, sleeps as long as asked, if the units divide a second
-/

namespace Diminuto.Elapsedsleep

open Delay (Honest)

/-- C176: the arguments are refused exactly if they are not numbers, or the delay is negative, or the units are not positive; nothing is done then. -/
theorem main_refuses {σ : Type} (w : Delay.World σ) (args : List (List Byte)) (s : σ) :
    ((main w args s).1 = .refused ↔ ¬ ∃ d u, Asks args d u) ∧ ((main w args s).1 = .refused → (main w args s).2 = s) := by
  unfold main
  cases h1 : delayOf args[0]? with
  | none =>
    refine ⟨⟨fun _ => ?_, fun _ => rfl⟩, fun _ => rfl⟩
    rintro ⟨d, u, h⟩
    rw [((asks_iff args d u).1 h).1] at h1
    exact (nomatch h1)
  | some d =>
    cases h2 : unitsOf args[1]? with
    | none =>
      refine ⟨⟨fun _ => ?_, fun _ => rfl⟩, fun _ => rfl⟩
      rintro ⟨d, u, h⟩
      rw [((asks_iff args d u).1 h).2] at h2
      exact (nomatch h2)
    | some u =>
      have ha : ∃ d u, Asks args d u := ⟨d, u, (asks_iff args d u).2 ⟨h1, h2⟩⟩
      suffices h : ∀ o : Outcome × σ, o.1 ≠ .refused → (o.1 = .refused ↔ ¬ ∃ d u, Asks args d u) ∧ (o.1 = .refused → o.2 = s) from by
        apply h
        simp only []
        repeat' split
        all_goals simp
      intro o ho
      exact ⟨⟨fun h => absurd h ho, fun h => absurd ha h⟩, fun h => absurd h ho⟩

/-- C176, of any units: what is undefined, and how long the program sleeps at least, unless a signal ends it. -/
theorem main_lasts {σ : Type} {w : Delay.World σ} {clock : σ → Int} (hw : Honest w clock) (args : List (List Byte)) (d u : Int) (ha : Asks args d u) (s : σ) :
    ((main w args s).1 = .undefined ↔ u ≤ 1000000000 ∧ 2 ^ 63 ≤ d * (1000000000 / u)) ∧
    ((main w args s).1 ≠ .undefined → Interrupted w (main w args s).2 ∨
      (u ≤ 1000000000 → clock s + d * (1000000000 / u) ≤ clock (main w args s).2) ∧ (1000000000 < u → clock s + d / (u / 1000000000) ≤ clock (main w args s).2)) := by
  obtain ⟨e1, e2⟩ := (asks_iff args d u).1 ha
  obtain ⟨d0, d1, u0, u1⟩ := asks_fits args d u ha
  have hz : (if d = 0 then some 0 else Time.units2ticks d u) =
      if u ≤ 1000000000 then (if d * (1000000000 / u) < 2 ^ 63 then some (d * (1000000000 / u)) else none) else some (d / (u / 1000000000)) := by
    by_cases h : d = 0
    · subst h
      simp
    · rw [if_neg h]
      exact ticks_eq d u d0 d1 u0 u1
  have key : ∀ t : Int, t < 2 ^ 63 → ∀ o : Outcome × σ,
      o = (if t ≤ 0 then (.yielded, s) else
        match Delay.delay w 1 (BitVec.ofInt 64 t) true s with
        | (.undefined, s) => (.undefined, s)
        | (_, s) => (.slept, s)) → 0 ≤ t → o.1 ≠ .undefined ∧ (clock s + t ≤ clock o.2 ∨ Interrupted w o.2) := by
    rintro t h1 o rfl h0
    by_cases h : t ≤ 0
    · rw [if_pos h]
      refine ⟨by simp, .inl ?_⟩
      show clock s + t ≤ clock s
      omega
    · rw [if_neg h]
      obtain ⟨r, s', hd, hc⟩ := delay_once hw t (by omega) h1 s
      rw [hd]
      exact ⟨by simp, hc⟩
  unfold main
  simp only [e1, e2]
  rw [hz]
  by_cases hu : u ≤ 1000000000
  · simp only [if_pos hu]
    by_cases ho : d * (1000000000 / u) < 2 ^ 63
    · simp only [if_pos ho]
      have q0 : 0 ≤ 1000000000 / u := Int.ediv_nonneg (by omega) (by omega)
      obtain ⟨k1, k2⟩ := key _ ho _ rfl (Int.mul_nonneg d0 q0)
      refine ⟨⟨fun h => absurd h k1, fun h => absurd h.2 (by omega)⟩, fun _ => ?_⟩
      rcases k2 with k2 | k2
      · exact .inr ⟨fun _ => k2, fun h => absurd h (by omega)⟩
      · exact .inl k2
    · simp only [if_neg ho]
      exact ⟨⟨fun _ => ⟨hu, by omega⟩, fun _ => trivial⟩, fun h => absurd rfl h⟩
  · simp only [if_neg hu]
    have h3 : 0 ≤ d / (u / 1000000000) := Int.ediv_nonneg d0 (by omega)
    have h4 : d / (u / 1000000000) ≤ d := Int.ediv_le_self _ d0
    obtain ⟨k1, k2⟩ := key _ (by omega) _ rfl h3
    refine ⟨⟨fun h => absurd h k1, fun h => absurd h.1 hu⟩, fun _ => ?_⟩
    rcases k2 with k2 | k2
    · exact .inr ⟨fun h => absurd h hu, fun _ => k2⟩
    · exact .inl k2

/-- C176, in part: if the units divide a second, and the delay is less than 2^63 ticks, the program sleeps at least as long as asked, unless a signal ends it.  Other units are missing: `units_counterexample`. -/
theorem main_exact_partial {σ : Type} {w : Delay.World σ} {clock : σ → Int} (hw : Honest w clock) (args : List (List Byte)) (d u : Int) (ha : Asks args d u) (hd : u ∣ 1000000000) (hm : d * 1000000000 < 2 ^ 63 * u) (s : σ) :
    (main w args s).1 ≠ .undefined ∧ (Interrupted w (main w args s).2 ∨ d * 1000000000 ≤ u * (clock (main w args s).2 - clock s)) := by
  obtain ⟨d0, d1, u0, u1⟩ := asks_fits args d u ha
  obtain ⟨h1, h2⟩ := main_lasts hw args d u ha s
  obtain ⟨q, hq⟩ := hd
  have hu : u ≤ 1000000000 := Int.le_of_dvd (by omega) ⟨q, hq⟩
  have hqe : 1000000000 / u = q := by rw [hq]; exact Int.mul_ediv_cancel_left q (by omega)
  rw [hqe] at h1 h2
  have e : d * 1000000000 = u * (d * q) := by rw [hq]; exact Int.mul_left_comm d u q
  have hne : (main w args s).1 ≠ .undefined := by
    intro h
    have h3 := (h1.1 h).2
    have h4 : u * 2 ^ 63 ≤ u * (d * q) := Int.mul_le_mul_of_nonneg_left h3 (by omega)
    omega
  refine ⟨hne, (h2 hne).imp_right fun h => ?_⟩
  rw [e]
  exact Int.mul_le_mul_of_nonneg_left (by have := h.1 hu; omega) (by omega)

/-- C176, of other units: the program sleeps at least half as long as asked, and with more than 10^9 units per second at most a tick less than asked. -/
theorem main_half {σ : Type} {w : Delay.World σ} {clock : σ → Int} (hw : Honest w clock) (args : List (List Byte)) (d u : Int) (ha : Asks args d u) (s : σ) (hn : (main w args s).1 ≠ .undefined) (hi : ¬ Interrupted w (main w args s).2) :
    (u ≤ 1000000000 → d * 1000000000 ≤ 2 * (u * (clock (main w args s).2 - clock s))) ∧ (1000000000 < u → d * 1000000000 < u * (clock (main w args s).2 - clock s + 1)) := by
  obtain ⟨d0, d1, u0, u1⟩ := asks_fits args d u ha
  obtain ⟨-, h2⟩ := main_lasts hw args d u ha s
  rcases h2 hn with h2 | h2
  · exact absurd h2 hi
  refine ⟨fun hu => ?_, fun hu => ?_⟩
  · have h3 := h2.1 hu
    have a1 := Int.mul_ediv_add_emod 1000000000 u
    have a2 := Int.emod_lt_of_pos 1000000000 u0
    generalize hq : 1000000000 / u = q at h3 a1
    have q1 : 1 ≤ q := by
      rw [← hq]
      exact (Int.le_ediv_iff_mul_le u0).2 (by omega)
    have a3 : u * 1 ≤ u * q := Int.mul_le_mul_of_nonneg_left q1 (by omega)
    have a4 : d * 1000000000 ≤ d * (2 * (u * q)) := Int.mul_le_mul_of_nonneg_left (by omega) d0
    have a5 : u * (d * q) ≤ u * (clock (main w args s).2 - clock s) := Int.mul_le_mul_of_nonneg_left (by omega) (by omega)
    have a6 : d * (2 * (u * q)) = 2 * (u * (d * q)) := by rw [Int.mul_left_comm d 2, Int.mul_left_comm d u]
    omega
  · have h3 := h2.2 hu
    have q1 : 1 ≤ u / 1000000000 := by omega
    have a0 : 1000000000 * (u / 1000000000) ≤ u := by omega
    generalize u / 1000000000 = q at h3 q1 a0
    have a1 := Int.mul_ediv_add_emod d q
    have a2 := Int.emod_lt_of_pos d (show 0 < q by omega)
    generalize d / q = e at h3 a1
    have b0 : d < q * (e + 1) := by rw [Int.mul_add]; omega
    have b1 : 1000000000 * d < 1000000000 * (q * (e + 1)) := by omega
    have e0 : 0 ≤ e + 1 := by
      by_cases h : 0 ≤ e + 1
      · exact h
      · have : q * (e + 1) ≤ q * 0 := Int.mul_le_mul_of_nonneg_left (by omega) (by omega)
        omega
    have b2 : 1000000000 * (q * (e + 1)) ≤ u * (e + 1) := by rw [← Int.mul_assoc]; exact Int.mul_le_mul_of_nonneg_right a0 e0
    have b3 : u * (e + 1) ≤ u * (clock (main w args s).2 - clock s + 1) := Int.mul_le_mul_of_nonneg_left (by omega) (by omega)
    omega

/-- A machine of `Delay`, without signals, and with one after 100 ticks: `elapsedsleep 1500 1000`. -/
example : main Delay.machine [[0x31, 0x35, 0x30, 0x30], [0x31, 0x30, 0x30, 0x30]] (0, []) = (.slept, 1500000000, []) ∧
    main Delay.machine [[0x31, 0x35, 0x30, 0x30], [0x31, 0x30, 0x30, 0x30]] (0, [100]) = (.slept, 100, []) ∧ main Delay.machine [] (7, []) = (.yielded, 7, []) ∧
    main Delay.machine [[0x31, 0x73]] (7, []) = (.refused, 7, []) ∧ main Delay.machine [[0x31], [0x30]] (7, []) = (.refused, 7, []) := by decide +kernel

/-- The hypotheses of `main_exact_partial` are met. -/
example : Asks [[0x31, 0x35, 0x30, 0x30], [0x31, 0x30, 0x30, 0x30]] 1500 1000 ∧ (1000 : Int) ∣ 1000000000 ∧ (1500 * 1000000000 : Int) < 2 ^ 63 * 1000 ∧ Honest Delay.machine (fun s => s.1) :=
  ⟨(asks_iff _ _ _).2 (by decide +kernel), ⟨1000000, rfl⟩, by decide, Delay.machine_honest⟩

/-- C176, false of other units: a second in units of which there are 600000001 in a second is asked for, and the program sleeps 0.6 of it. -/
theorem units_counterexample : Asks [[0x36, 0x30, 0x30, 0x30, 0x30, 0x30, 0x30, 0x30, 0x31], [0x36, 0x30, 0x30, 0x30, 0x30, 0x30, 0x30, 0x30, 0x31]] 600000001 600000001 ∧
    main Delay.machine [[0x36, 0x30, 0x30, 0x30, 0x30, 0x30, 0x30, 0x30, 0x31], [0x36, 0x30, 0x30, 0x30, 0x30, 0x30, 0x30, 0x30, 0x31]] (0, []) = (.slept, 600000001, []) :=
  ⟨(asks_iff _ _ _).2 (by decide +kernel), by decide +kernel⟩

/-- C176, false of long delays: the ticks of 9223372037 seconds overflow. -/
theorem overflow_counterexample : (main Delay.machine [[0x39, 0x32, 0x32, 0x33, 0x33, 0x37, 0x32, 0x30, 0x33, 0x37]] (0, [])).1 = .undefined := by decide +kernel

/-- C176, a finding: an empty delay is accepted as zero, and an empty number of units is refused. -/
theorem empty_counterexample : main Delay.machine [[]] (0, []) = (.yielded, 0, []) ∧ main Delay.machine [[0x31], []] (0, []) = (.refused, 0, []) := by decide +kernel

end Diminuto.Elapsedsleep
