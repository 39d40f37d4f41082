import Verif.ZoneLemmas

/-!
# Properties of local time, and of the tools that tell the time
-/

namespace Diminuto.Zone

open Diminuto.Time

/-- A zone an hour east of Greenwich with summers between two times. -/
def exampleZone : Zone where
  timezone := -3600
  daylight := true
  localtime s := (gregorian.gmtime (s + (3600 + if 1774746000 ≤ s ∧ s < 1792890000 then 3600 else 0))).map fun tm => (tm, if 1774746000 ≤ s ∧ s < 1792890000 then 1 else 0)

theorem exampleRegular : Regular gregorian exampleZone fun s => decide (1774746000 ≤ s ∧ s < 1792890000) where
  west := by decide
  local_ := fun s => by simp [exampleZone]
  never := fun h => nomatch h

/-- C159: local time is universal time by the time zone and the daylight saving time later, and they lead back to it.  For zones as the code has them: the C library knows others, and what it says is an hour in the summer may be something else. Before the Epoch the daylight saving time is that of the second after. -/
theorem zone_local_partial (c : Libc) (hc : c.Inverse) (z : Zone) (summer : Int → Bool) (hz : Regular c z summer) (t : Int) (ht : Common t)
    (hneg : t < 0 → summer (t / 1000000000) = summer (t.tdiv 1000000000) ∧ z.localtime (t.tdiv 1000000000) ≠ none) (f : Fields) (hf : juliet z t = some (some f)) :
    ∃ tz dst, timezone z = some tz ∧ daylightsaving z t = some dst ∧ zulu c (t + tz + dst) = some (some f) ∧ epoch c f tz dst = some t := by
  have hsep := separate_floor ht
  have hj := hf
  unfold juliet at hf
  rw [hsep, Option.map_some] at hf
  simp only [Option.some.injEq, Option.map_eq_some_iff] at hf
  obtain ⟨⟨tm, dstflag⟩, hl, rfl⟩ := hf
  have hsame : summer (t.tdiv 1000000000) = summer (t / 1000000000) ∧ z.localtime (t.tdiv 1000000000) ≠ none := by
    by_cases h0 : t < 0
    · exact ⟨(hneg h0).1.symm, (hneg h0).2⟩
    · rw [tdiv_floor (by omega)]
      exact ⟨rfl, by rw [hl]; exact nofun⟩
  have hd := daylight_eq hz ht hsame.2
  rw [hsame.1] at hd
  have hw := hz.west
  refine ⟨_, _, timezone_eq hw, hd, ?_, ?_⟩
  all_goals
    have hloc := hz.local_ (t / 1000000000)
    rw [hl] at hloc
    have hloc := hloc.symm
    rw [Option.map_eq_some_iff] at hloc
    obtain ⟨tm', hg, hpair⟩ := hloc
    have htm : tm' = tm := (Prod.mk.injEq .. ▸ hpair).1
    subst htm
    unfold Common at ht
    generalize hsum : (if summer (t / 1000000000) then (3600 : Int) else 0) = d at hg
    have hticks : (if summer (t / 1000000000) then (3600000000000 : Int) else 0) = d * 1000000000 := by
      rw [← hsum]; split <;> rfl
    have hdr : 0 ≤ d ∧ d ≤ 3600 := by rw [← hsum]; split <;> omega
    rw [hticks]
  · have hsep' : separate (t + -z.timezone * 1000000000 + d * 1000000000) = some (t / 1000000000 + (-z.timezone + d), t % 1000000000) := by
      have : ∃ s fr, separate (t + -z.timezone * 1000000000 + d * 1000000000) = some (s, fr) ∧ 0 ≤ fr ∧ fr < 1000000000 ∧ s * 1000000000 + fr = t + -z.timezone * 1000000000 + d * 1000000000 :=
        time_separate_exact _ (by unfold Fits; omega) (by omega)
      obtain ⟨s, fr, e, h1, h2, h3⟩ := this
      rw [e]
      congr 2 <;> omega
    unfold zulu
    rw [hsep', Option.map_some]
    show some ((c.gmtime (t / 1000000000 + (-z.timezone + d))).map _) = _
    rw [hg]
    rfl
  · unfold epoch
    simp only [Int.add_sub_cancel]
    rw [hc.1 _ _ hg]
    simp only []
    rw [seconds_ticks (by unfold Fits; omega), Option.bind_some, if_neg, chk_of (by unfold Fits; omega), Option.bind_some, chk_of (by unfold Fits; omega), Option.bind_some, chk_of (by unfold Fits; omega)]
    · congr 1; omega
    · rintro ⟨h1, hne⟩
      rw [h1] at hg
      have := hc.2 _ hg
      subst this
      exact hne ⟨rfl, rfl, rfl, rfl, rfl, rfl⟩

example : juliet exampleZone 1784289600000000007 = some (some ⟨2026, 7, 17, 14, 0, 0, 7⟩) ∧ timezone exampleZone = some 3600000000000 ∧ daylightsaving exampleZone 1784289600000000007 = some 3600000000000 := by decide +kernel

example : ∃ tz dst, timezone exampleZone = some tz ∧ daylightsaving exampleZone 1784289600000000007 = some dst ∧ zulu gregorian (1784289600000000007 + tz + dst) = some (some ⟨2026, 7, 17, 14, 0, 0, 7⟩) ∧
    epoch gregorian ⟨2026, 7, 17, 14, 0, 0, 7⟩ tz dst = some 1784289600000000007 :=
  zone_local_partial gregorian gregorian_inverse exampleZone _ exampleRegular 1784289600000000007 (by unfold Common; omega) (fun h => absurd h (by decide)) _ (by decide +kernel)

/-- C159: the claim as it is, for a zone in which the clocks are set by half an hour, for a time when the standard time of a zone was another one than it is today, and for the second before the Epoch if the summer ended with it. -/
theorem zone_local_counterexample :
    (∃ z : Zone, Honest gregorian z (fun _ => 39600) ∧ juliet z 0 = some (some ⟨1970, 1, 1, 11, 0, 0, 0⟩) ∧ timezone z = some 37800000000000 ∧ daylightsaving z 0 = some 3600000000000 ∧
      epoch gregorian ⟨1970, 1, 1, 11, 0, 0, 0⟩ 37800000000000 3600000000000 = some (-1800000000000)) ∧
    (∃ z : Zone, Honest gregorian z (fun s => if s < 57722400 then 3600 else 0) ∧ juliet z 0 = some (some ⟨1970, 1, 1, 1, 0, 0, 0⟩) ∧ timezone z = some 0 ∧ daylightsaving z 0 = some 0 ∧
      epoch gregorian ⟨1970, 1, 1, 1, 0, 0, 0⟩ 0 0 = some 3600000000000) ∧
    (∃ z : Zone, Regular gregorian z (fun s => decide (s < 0)) ∧ juliet z (-1) = some (some ⟨1970, 1, 1, 0, 59, 59, 999999999⟩) ∧ timezone z = some 0 ∧ daylightsaving z (-1) = some 0 ∧
      epoch gregorian ⟨1970, 1, 1, 0, 59, 59, 999999999⟩ 0 0 = some 3599999999999) := by
  refine ⟨⟨⟨-37800, true, fun s => (gregorian.gmtime (s + 39600)).map fun tm => (tm, 1)⟩, fun s => rfl, ?_⟩, ⟨⟨0, true, fun s => (gregorian.gmtime (s + if s < 57722400 then 3600 else 0)).map fun tm => (tm, 0)⟩, fun s => rfl, ?_⟩,
    ⟨⟨0, true, fun s => (gregorian.gmtime (s + (0 + if decide (s < 0) then 3600 else 0))).map fun tm => (tm, if decide (s < 0) then 1 else 0)⟩, ⟨by decide, fun s => rfl, nofun⟩, ?_⟩⟩
  all_goals decide +kernel

/-- C159: if the C library cannot tell the local time, that is an error, also of the daylight saving time in zones that have one. -/
theorem zone_failure (z : Zone) (t : Int) (ht : Common t) :
    (z.localtime (t / 1000000000) = none → juliet z t = some none) ∧ (z.daylight = true → z.localtime (t.tdiv 1000000000) = none → daylightsaving z t = some ERROR) := by
  constructor
  · intro h
    unfold juliet
    rw [separate_floor ht, Option.map_some]
    show some ((z.localtime (t / 1000000000)).map _) = _
    rw [h]
    rfl
  · intro hd h
    unfold Common at ht
    unfold daylightsaving
    rw [if_pos hd, wholeseconds_eq t (by unfold Fits; omega), Option.bind_some, h]

example : daylightsaving ⟨0, true, fun _ => none⟩ 5 = some ERROR := (zone_failure ⟨0, true, fun _ => none⟩ 5 (by unfold Common; omega)).2 rfl rfl

/-- C160: the tool for universal time prints the time of the clock. -/
theorem zulutool_partial (c : Libc) (clock : Option (Int × Int)) (t : Int) (h : Reading clock t) (ht : Common t) (f : Fields) (hf : zulu c t = some (some f)) : zuluTool c clock = some (.stamp f '+' 0 0) := by
  unfold Common at ht
  unfold zuluTool
  rw [generic_eq h ht, Option.bind_some]
  simp only []
  rw [if_neg (not_neg _), ofInt_toInt (by unfold Fits; omega), hf]
  rfl

example : zuluTool gregorian (some (951782400, 5)) = some (.stamp ⟨2000, 2, 29, 0, 0, 0, 5⟩ '+' 0 0) :=
  zulutool_partial gregorian (some (951782400, 5)) 951782400000000005 ⟨951782400, 5, rfl, by decide, by decide, by decide⟩ (by unfold Common; omega) _ (by decide +kernel)

/-- C160: the tool for local time prints the local time; but always a plus sign, and for the minutes the seconds by which the offset is more than whole hours. -/
theorem juliettool_prints (c : Libc) (z : Zone) (summer : Int → Bool) (hz : Regular c z summer) (clock : Option (Int × Int)) (t : Int) (h : Reading clock t) (h0 : 0 ≤ t) (ht : Common t) (f : Fields) (hf : juliet z t = some (some f)) :
    let o := -z.timezone + if summer (t / 1000000000) then 3600 else 0
    julietTool z clock = some (.stamp f '+' ((if o < 0 then -o else o) / 3600) ((if o < 0 then -o else o) % 3600)) := by
  simp only []
  have hl : z.localtime (t.tdiv 1000000000) ≠ none := by
    rw [tdiv_floor h0]
    have hf := hf
    unfold juliet at hf
    rw [separate_floor ht, Option.map_some] at hf
    simp only [Option.some.injEq, Option.map_eq_some_iff] at hf
    obtain ⟨x, hx, _⟩ := hf
    rw [hx]; exact nofun
  have hd := daylight_eq hz ht hl
  rw [tdiv_floor h0] at hd
  have hw := hz.west
  unfold julietTool
  rw [generic_eq h ht, Option.bind_some]
  simp only []
  unfold Common at ht
  rw [if_neg (not_neg _), timezone_eq hw, Option.bind_some, ofInt_toInt (by unfold Fits; omega), hd, Option.bind_some]
  generalize hsum : (if summer (t / 1000000000) then (3600 : Int) else 0) = d
  have hticks : (if summer (t / 1000000000) then (3600000000000 : Int) else 0) = d * 1000000000 := by
    rw [← hsum]; split <;> rfl
  have hdr : 0 ≤ d ∧ d ≤ 3600 := by rw [← hsum]; split <;> omega
  rw [hticks, chk_of (by unfold Fits; omega), Option.bind_some]
  rw [ofInt_toInt (by unfold Fits; omega), wholeseconds_eq _ (by unfold Fits; omega), Option.bind_some]
  have hq : (-z.timezone * 1000000000 + d * 1000000000).tdiv 1000000000 = -z.timezone + d := by
    rw [← Int.add_mul]
    exact Int.mul_tdiv_cancel _ (by decide)
  rw [hq]
  have h32 : (BitVec.ofInt 32 (-z.timezone + d)).toInt = -z.timezone + d := by
    rw [BitVec.toInt_ofInt]
    exact Int.bmod_eq_of_le_mul_two (by omega) (by omega)
  rw [if_neg (by
    intro he
    have := congrArg BitVec.toInt he
    rw [h32] at this
    have hm : (BitVec.intMin 32).toInt = -2147483648 := by decide
    rw [hm] at this
    omega), h32, hf, if_neg (not_neg _)]
  simp only [Option.map_some]
  rw [Int.tdiv_eq_ediv_of_nonneg (by split <;> omega), Int.tmod_eq_emod_of_nonneg (by split <;> omega)]

example : julietTool exampleZone (some (1784289600, 7)) = some (.stamp ⟨2026, 7, 17, 14, 0, 0, 7⟩ '+' 2 0) :=
  juliettool_prints gregorian exampleZone _ exampleRegular (some (1784289600, 7)) 1784289600000000007 ⟨1784289600, 7, rfl, by decide, by decide, by decide⟩ (by decide) (by unfold Common; omega) _ (by decide +kernel)

/-- C160: for offsets of whole hours to the east what is printed is the offset. -/
theorem juliettool_partial (c : Libc) (z : Zone) (summer : Int → Bool) (hz : Regular c z summer) (clock : Option (Int × Int)) (t : Int) (h : Reading clock t) (h0 : 0 ≤ t) (ht : Common t) (f : Fields) (hf : juliet z t = some (some f))
    (hours : Int) (he : 0 ≤ hours) (ho : -z.timezone + (if summer (t / 1000000000) then 3600 else 0) = hours * 3600) :
    ∃ sign hh mm, julietTool z clock = some (.stamp f sign hh mm) ∧ Iso (hours * 3600) sign hh mm := by
  have := juliettool_prints c z summer hz clock t h h0 ht f hf
  simp only [] at this
  rw [ho] at this
  refine ⟨_, _, _, this, ?_⟩
  rw [if_neg (by omega)]
  exact ⟨by omega, by omega, by omega, Or.inl ⟨rfl, by omega, by omega⟩⟩

example : ∃ sign hh mm, julietTool exampleZone (some (1784289600, 7)) = some (.stamp ⟨2026, 7, 17, 14, 0, 0, 7⟩ sign hh mm) ∧ Iso (2 * 3600) sign hh mm :=
  juliettool_partial gregorian exampleZone _ exampleRegular (some (1784289600, 7)) 1784289600000000007 ⟨1784289600, 7, rfl, by decide, by decide, by decide⟩ (by decide) (by unfold Common; omega) _ (by decide +kernel) 2 (by decide) (by decide)

/-- C160: seven hours to the west are printed as +07:00, and five hours and a half to the east as +05:1800. -/
theorem juliettool_counterexample :
    (∃ z : Zone, Regular gregorian z (fun _ => false) ∧ z.timezone = 25200 ∧ julietTool z (some (1784289600, 0)) = some (.stamp ⟨2026, 7, 17, 5, 0, 0, 0⟩ '+' 7 0) ∧ ¬ Iso (-25200) '+' 7 0) ∧
    (∃ z : Zone, Regular gregorian z (fun _ => false) ∧ z.timezone = -19800 ∧ julietTool z (some (1784289600, 0)) = some (.stamp ⟨2026, 7, 17, 17, 30, 0, 0⟩ '+' 5 1800) ∧ ¬ Iso 19800 '+' 5 1800) := by
  refine ⟨⟨⟨25200, false, fun s => (gregorian.gmtime (s + (-25200 + 0))).map fun tm => (tm, 0)⟩, ⟨by decide, fun s => rfl, fun _ _ => rfl⟩, rfl, by decide +kernel, by unfold Iso; decide⟩,
    ⟨⟨-19800, false, fun s => (gregorian.gmtime (s + (19800 + 0))).map fun tm => (tm, 0)⟩, ⟨by decide, fun s => rfl, fun _ _ => rfl⟩, rfl, by decide +kernel, by unfold Iso; decide⟩⟩

/-- C161: the tools that print the time in units of so many in a second print the whole number of units, for every unit that divides a second into ticks. -/
theorem unitstool_partial (arg : Option (Int × Bool)) (units : Int) (ha : arg = none ∧ units = 1 ∨ arg = some (units, true)) (h0 : 0 < units) (hd : units ∣ 1000000000) (clock : Option (Int × Int)) (t : Int) (h : Reading clock t) (hp : 0 < t) (ht : Common t) :
    unitsTool arg clock = some (.number (t * units / 1000000000)) := by
  unfold unitsTool
  have hu : argument arg = some units := by
    rcases ha with ⟨rfl, rfl⟩ | rfl
    · rfl
    · unfold argument
      simp only []
      rw [if_neg (by omega)]
      rfl
  rw [hu]
  simp only []
  rw [generic_eq h ht, Option.bind_some, if_neg (by omega)]
  unfold Common at ht
  obtain ⟨k, hk⟩ := hd
  have hkpos : 0 < k := by
    rcases Int.lt_trichotomy k 0 with hk0 | hk0 | hk0
    · have : units * k < 0 := Int.mul_neg_of_pos_of_neg h0 hk0
      omega
    · subst hk0; simp at hk
    · exact hk0
  have hle : units ≤ 1000000000 := by
    rw [hk]
    have : units * 1 ≤ units * k := Int.mul_le_mul_of_nonneg_left (by omega) (by omega)
    omega
  unfold ticks2units
  rw [if_neg (by unfold frequency; omega)]
  have hquot : t * units / 1000000000 = t / k := by
    rw [hk, Int.mul_comm units k]
    exact Int.mul_ediv_mul_of_pos_left _ _ h0
  by_cases hlt : units < 1000000000
  · rw [if_pos (by unfold frequency; omega)]
    have h1 : div? frequency units = some k := by
      unfold div? frequency
      rw [if_neg (by omega), hk, Int.mul_tdiv_cancel_left _ (by omega)]
      apply chk_of
      unfold Fits
      have : 1 * k ≤ units * k := Int.mul_le_mul_of_nonneg_right (by omega) (by omega)
      omega
    rw [h1, Option.bind_some, div?, if_neg (by omega), Int.tdiv_eq_ediv_of_nonneg (by omega)]
    have hb : 0 ≤ t / k ∧ t / k ≤ t := ⟨Int.ediv_nonneg (by omega) (by omega), Int.ediv_le_self _ (by omega)⟩
    rw [chk_of (by unfold Fits; omega), hquot]
    rfl
  · have : units = 1000000000 := by omega
    subst this
    rw [if_neg (by unfold frequency; omega)]
    simp only [Option.map_some]
    congr 2
    omega

example : unitsTool (some (1000, true)) (some (1784289600, 123456789)) = some (.number 1784289600123) :=
  unitstool_partial (some (1000, true)) 1000 (Or.inr rfl) (by decide) ⟨1000000, by decide⟩ (some (1784289600, 123456789)) 1784289600123456789 ⟨1784289600, 123456789, rfl, by decide, by decide, by decide⟩ (by decide) (by unfold Common; omega)

/-- C161: an argument that is no positive number is refused. -/
theorem unitstool_refuses (n : Int) (all : Bool) (h : n ≤ 0 ∨ all = false) (clock : Option (Int × Int)) : unitsTool (some (n, all)) clock = some (.status 1) := by
  unfold unitsTool argument
  by_cases h0 : n ≤ 0
  · simp only [if_pos h0]
  · rcases h with h | rfl
    · exact absurd h h0
    · simp only [if_neg h0]
      rfl

example : unitsTool (some (0, true)) none = some (.status 1) := unitstool_refuses 0 true (Or.inl (by decide)) none

/-- C161: with a unit that does not divide a second the number is not that of whole units. -/
theorem unitstool_counterexample : unitsTool (some (60000000, true)) (some (1000, 0)) = some (.number 62500000000) ∧ (1000 * 1000000000 : Int) * 60000000 / 1000000000 = 60000000000 := by decide +kernel

/-- C160 and C161: that the clock cannot be read is not noticed: the tools for the date have undefined behaviour then, and the others print a time long ago, as a success. -/
theorem clocktools_failure_counterexample : zuluTool gregorian none = none ∧ (∀ z, julietTool z none = none) ∧ unitsTool none none = some (.number (-9223372036)) := by
  refine ⟨by decide +kernel, ?_, by decide +kernel⟩
  intro z
  have e : ∀ z, juliet z (BitVec.ofInt 64 ERROR).toInt = none := by
    intro z
    have : separate (BitVec.ofInt 64 ERROR).toInt = none := by decide +kernel
    unfold juliet
    rw [this]; rfl
  unfold julietTool generic
  simp only [Option.bind_some]
  rw [if_neg (not_neg _)]
  cases timezone z with
  | none => rfl
  | some a =>
    simp only [Option.bind_some]
    cases daylightsaving z (BitVec.ofInt 64 ERROR).toInt with
    | none => rfl
    | some b =>
      simp only [Option.bind_some]
      cases chk (a + b) with
      | none => rfl
      | some o =>
        simp only [Option.bind_some]
        cases ticks2wholeseconds (BitVec.ofInt 64 o).toInt with
        | none => rfl
        | some s =>
          simp only [Option.bind_some, e]
          split <;> rfl

end Diminuto.Zone
