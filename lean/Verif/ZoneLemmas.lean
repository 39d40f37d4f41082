import Verif.ZoneSpec
import Verif.TimeProps

/-!
# Lemmas for local time
-/

namespace Diminuto.Zone

open Diminuto.Time

theorem seconds_ticks {s : Int} (h : Fits (s * 1000000000)) : seconds2ticks s 0 1 = some (s * 1000000000) := by
  unfold Fits at h
  unfold seconds2ticks units2ticks
  rw [if_neg (by decide), if_pos (by decide), units_one, Option.bind_some, chk_of (by unfold Fits; omega), Option.bind_some, if_neg (by decide), if_pos (by decide), Option.bind_some]
  simp only [Int.zero_mul]
  rw [chk_of (x := 0) (by unfold Fits; omega), Option.bind_some, Int.add_zero]
  exact chk_of (by unfold Fits; omega)

theorem timezone_eq {z : Zone} (h : -86400 ≤ z.timezone ∧ z.timezone ≤ 86400) : timezone z = some (-z.timezone * 1000000000) := by
  unfold timezone
  rw [chk_of (by unfold Fits; omega), Option.bind_some]
  exact seconds_ticks (by unfold Fits; omega)

/-- The whole seconds and the fraction of a time. -/
theorem separate_floor {t : Int} (h : Common t) : separate t = some (t / 1000000000, t % 1000000000) := by
  unfold Common at h
  obtain ⟨s, fr, e, h1, h2, h3⟩ := time_separate_exact t (by unfold Fits; omega) (by omega)
  rw [e]
  congr 2
  · omega
  · omega

theorem tdiv_floor {t : Int} (h : 0 ≤ t) : t.tdiv 1000000000 = t / 1000000000 := Int.tdiv_eq_ediv_of_nonneg h

theorem daylight_eq {c : Libc} {z : Zone} {summer : Int → Bool} (h : Regular c z summer) {t : Int} (ht : Common t) (hl : z.localtime (t.tdiv 1000000000) ≠ none) :
    daylightsaving z t = some (if summer (t.tdiv 1000000000) then 3600000000000 else 0) := by
  unfold Common at ht
  unfold daylightsaving
  by_cases hd : z.daylight = true
  · rw [if_pos hd, wholeseconds_eq t (by unfold Fits; omega), Option.bind_some]
    have hloc := h.local_ (t.tdiv 1000000000)
    cases hg : c.gmtime (t.tdiv 1000000000 + (-z.timezone + if summer (t.tdiv 1000000000) then 3600 else 0)) with
    | none => rw [hg] at hloc; exact absurd hloc hl
    | some tm =>
      rw [hg] at hloc
      rw [hloc]
      simp only [Option.map_some]
      cases summer (t.tdiv 1000000000) with
      | true => rw [if_pos (by decide)]; exact seconds_ticks (by unfold Fits; omega)
      | false => rw [if_neg (by decide)]; exact seconds_ticks (by unfold Fits; omega)
  · rw [if_neg hd, h.never (by simpa using hd)]
    rfl

theorem generic_eq {clock : Option (Int × Int)} {t : Int} (h : Reading clock t) (ht : Common t) : generic clock = some t := by
  obtain ⟨sec, nsec, rfl, h1, h2, rfl⟩ := h
  unfold Common at ht
  unfold generic
  show seconds2ticks sec nsec 1000000000 = _
  unfold seconds2ticks units2ticks
  rw [if_neg (by decide), if_pos (by decide), units_one, Option.bind_some, chk_of (by unfold Fits; omega), Option.bind_some, if_neg (by decide), if_neg (by decide), Option.bind_some]
  exact chk_of (by unfold Fits; omega)

theorem ofInt_toInt {t : Int} (h : Fits t) : (BitVec.ofInt 64 t).toInt = t := by
  unfold Fits at h
  rw [BitVec.toInt_ofInt]
  exact Int.bmod_eq_of_le_mul_two (by omega) (by omega)

theorem not_neg (x : BitVec 64) : ¬ x < 0 := by
  rw [BitVec.lt_def]; simp

end Diminuto.Zone
