import Verif.ElapsedsleepSpec
import Verif.DelayProps
import Verif.NumberProps

/-!
# Lemmas: the tool that sleeps
-/

namespace Diminuto.Elapsedsleep

open Delay (Honest Timespec)

theorem says_iff (t : List Byte) (v : Int) : Says t v ↔ (Number.strtoll t).2.1 = [] ∧ (Number.strtoll t).1 = v := by
  by_cases ht : t = []
  · subst ht
    have h0 : Number.strtoll [] = (0, [], none) := by decide
    rw [h0]
    constructor
    · rintro (⟨-, h⟩ | ⟨neg, n, hr, hv⟩)
      · exact ⟨rfl, h.symm⟩
      · exfalso
        rw [← Number.scan_iff] at hr
        exact absurd hr (by rw [show Number.scan [] = none from by decide]; simp)
    · rintro ⟨-, h⟩
      exact .inl ⟨rfl, h.symm⟩
  · unfold Says Number.strtoll
    cases hs : Number.scan t with
    | none =>
      constructor
      · rintro (⟨h, -⟩ | ⟨neg, n, hr, hv⟩)
        · exact absurd h ht
        · rw [← Number.scan_iff, hs] at hr; exact (nomatch hr)
      · rintro ⟨h, -⟩
        exact absurd h ht
    | some x =>
      obtain ⟨neg, n, r⟩ := x
      simp only []
      have hval : ∀ u, ((if neg = true then (if n ≤ 2 ^ 63 then (-(n : Int), r, none) else (-2 ^ 63, r, some Number.Errno.range)) else (if n < 2 ^ 63 then ((n : Int), r, none) else (2 ^ 63 - 1, r, some .range)) : Int × List Byte × Option Number.Errno)).2.1 = u ↔ r = u := by
        intro u
        cases neg <;> simp only [Bool.false_eq_true, if_true, if_false] <;> split <;> rfl
      have hval2 : ((if neg = true then (if n ≤ 2 ^ 63 then (-(n : Int), r, none) else (-2 ^ 63, r, some Number.Errno.range)) else (if n < 2 ^ 63 then ((n : Int), r, none) else (2 ^ 63 - 1, r, some .range)) : Int × List Byte × Option Number.Errno)).1 =
          if neg = true then max (-(n : Int)) (-2 ^ 63) else min (n : Int) (2 ^ 63 - 1) := by
        cases neg <;> simp only [Bool.false_eq_true, if_true, if_false] <;> split <;> simp only [] <;> omega
      rw [hval, hval2]
      constructor
      · rintro (⟨h, -⟩ | ⟨neg', n', hr, hv⟩)
        · exact absurd h ht
        · rw [← Number.scan_iff, hs] at hr
          simp only [Option.some.injEq, Prod.mk.injEq] at hr
          obtain ⟨rfl, rfl, rfl⟩ := hr
          exact ⟨rfl, hv.symm⟩
      · rintro ⟨h1, h2⟩
        refine .inr ⟨neg, n, ?_, h2.symm⟩
        rw [← Number.scan_iff, hs, h1]

theorem strtoll_fits (t : List Byte) : (Number.strtoll t).1 < 2 ^ 63 := by
  unfold Number.strtoll
  cases Number.scan t with
  | none => simp
  | some x =>
    simp only []
    repeat' split
    all_goals simp only []
    all_goals omega

theorem delayOf_some (t : List Byte) (v : Int) : delayOf (some t) = some v ↔ Says t v ∧ 0 ≤ v := by
  rw [says_iff]
  unfold delayOf
  constructor
  · intro h
    simp only [] at h
    split at h
    · exact (nomatch h)
    · split at h
      · exact (nomatch h)
      · rename_i h1 h2
        have := Option.some.inj h
        exact ⟨⟨by simpa using h2, this⟩, by omega⟩
  · rintro ⟨⟨h1, h2⟩, h3⟩
    simp only []
    rw [if_neg (by omega), if_neg (by simpa using h1), h2]

theorem unitsOf_some (t : List Byte) (v : Int) : unitsOf (some t) = some v ↔ Says t v ∧ 0 < v := by
  rw [says_iff]
  unfold unitsOf
  constructor
  · intro h
    simp only [] at h
    split at h
    · exact (nomatch h)
    · split at h
      · exact (nomatch h)
      · rename_i h1 h2
        have := Option.some.inj h
        exact ⟨⟨by simpa using h2, this⟩, by omega⟩
  · rintro ⟨⟨h1, h2⟩, h3⟩
    simp only []
    rw [if_neg (by omega), if_neg (by simpa using h1), h2]

theorem asks_iff (args : List (List Byte)) (d u : Int) : Asks args d u ↔ delayOf args[0]? = some d ∧ unitsOf args[1]? = some u := by
  match args with
  | [] => exact ⟨fun h => ⟨by rw [show d = 0 from h.delay]; rfl, by rw [show u = 1 from h.units]; rfl⟩, fun h => ⟨(Option.some.inj h.1).symm, (Option.some.inj h.2).symm⟩⟩
  | [a] =>
    refine ⟨fun h => ⟨(delayOf_some a d).2 h.delay, by rw [show u = 1 from h.units]; rfl⟩, fun h => ⟨(delayOf_some a d).1 h.1, (Option.some.inj h.2).symm⟩⟩
  | a :: b :: r =>
    exact ⟨fun h => ⟨(delayOf_some a d).2 h.delay, (unitsOf_some b u).2 h.units⟩, fun h => ⟨(delayOf_some a d).1 h.1, (unitsOf_some b u).1 h.2⟩⟩

theorem asks_fits (args : List (List Byte)) (d u : Int) (h : Asks args d u) : 0 ≤ d ∧ d < 2 ^ 63 ∧ 0 < u ∧ u < 2 ^ 63 := by
  have fit : ∀ t v, Says t v → v < 2 ^ 63 := fun t v h => by rw [← ((says_iff t v).1 h).2]; exact strtoll_fits t
  match args with
  | [] =>
    have h1 : d = 0 := h.delay
    have h2 : u = 1 := h.units
    omega
  | [a] =>
    have h1 := h.delay
    have h2 : u = 1 := h.units
    have := fit a d h1.1
    omega
  | a :: b :: r =>
    have h1 := h.delay
    have h2 := h.units
    have := fit a d h1.1
    have := fit b u h2.1
    omega

/-- What the conversion comes to. -/
theorem ticks_eq (d u : Int) (d0 : 0 ≤ d) (d1 : d < 2 ^ 63) (u0 : 0 < u) (u1 : u < 2 ^ 63) :
    Time.units2ticks d u = if u ≤ 1000000000 then (if d * (1000000000 / u) < 2 ^ 63 then some (d * (1000000000 / u)) else none) else some (d / (u / 1000000000)) := by
  have q0 : 0 ≤ 1000000000 / u := Int.ediv_nonneg (by omega) (by omega)
  have q1 : 1000000000 / u ≤ 1000000000 := Int.ediv_le_self u (by omega)
  have p0 : 0 ≤ d * (1000000000 / u) := Int.mul_nonneg d0 q0
  unfold Time.units2ticks
  show (if u > 1000000000 then (Time.div? u 1000000000).bind fun q => Time.div? d q else if u < 1000000000 then (Time.div? 1000000000 u).bind fun q => Time.chk (d * q) else some d) = _
  by_cases h1 : u > 1000000000
  · rw [if_pos h1, if_neg (by omega)]
    have h2 : 0 < u / 1000000000 := by omega
    have h3 : 0 ≤ d / (u / 1000000000) := Int.ediv_nonneg d0 (by omega)
    have h4 : d / (u / 1000000000) ≤ d := Int.ediv_le_self _ d0
    have hd : Time.div? u 1000000000 = some (u / 1000000000) := by
      unfold Time.div?
      rw [if_neg (by decide), Int.tdiv_eq_ediv_of_nonneg (by omega)]
      exact Time.chk_of (by simp only [Time.Fits]; omega)
    rw [hd, Option.bind_some]
    unfold Time.div?
    rw [if_neg (by omega), Int.tdiv_eq_ediv_of_nonneg d0]
    exact Time.chk_of (by simp only [Time.Fits]; omega)
  · rw [if_neg h1, if_pos (show u ≤ 1000000000 by omega)]
    by_cases h2 : u < 1000000000
    · rw [if_pos h2]
      have hd : Time.div? 1000000000 u = some (1000000000 / u) := by
        unfold Time.div?
        rw [if_neg (by omega), Int.tdiv_eq_ediv_of_nonneg (by omega)]
        exact Time.chk_of (by simp only [Time.Fits]; omega)
      rw [hd, Option.bind_some]
      by_cases h3 : d * (1000000000 / u) < 2 ^ 63
      · rw [if_pos h3]; exact Time.chk_of (by simp only [Time.Fits]; omega)
      · rw [if_neg h3]; exact Time.chk_none (by simp only [Time.Fits]; omega)
    · have : u = 1000000000 := by omega
      subst this
      rw [if_neg h2]
      simp only [show (1000000000 : Int) / 1000000000 = 1 from rfl, Int.mul_one]
      rw [if_pos d1]

/-- The delay of a tick or more. -/
theorem delay_once {σ : Type} {w : Delay.World σ} {clock : σ → Int} (hw : Honest w clock) (ticks : Int) (h0 : 0 < ticks) (h1 : ticks < 2 ^ 63) (s : σ) :
    ∃ r s', Delay.delay w 1 (BitVec.ofInt 64 ticks) true s = (.returned r, s') ∧ (clock s + ticks ≤ clock s' ∨ Interrupted w s') := by
  have hi : (BitVec.ofInt 64 ticks).toInt = ticks := by
    rw [BitVec.toInt_ofInt]
    simp only [Int.bmod]
    omega
  have hn : ((BitVec.ofInt 64 ticks).toNat : Int) = ticks := by
    have := BitVec.toInt_eq_toNat_cond (BitVec.ofInt 64 ticks)
    have hl := (BitVec.ofInt 64 ticks).isLt
    split at this <;> omega
  rcases hd : Delay.delay w 1 (BitVec.ofInt 64 ticks) true s with ⟨o, s'⟩
  have hl := Delay.delay_lasts hw 1 (BitVec.ofInt 64 ticks) true s s' o (by omega) hd
  obtain ⟨d, e1, e2, e3, e4, -⟩ := Delay.split_whole (BitVec.ofInt 64 ticks).toInt (Delay.toInt_fits _)
  have hv : d.Valid := e4.2 (by omega)
  simp only [Delay.delay, e1, e2, Delay.loop] at hd
  rcases hq : w.nanosleep d s with ⟨a, t⟩
  rw [hq] at hd
  cases a with
  | failed => exact absurd hv (hw.failed _ _ _ hq).1
  | done =>
    have hz : Time.seconds2ticks 0 0 Delay.FREQUENCY = some 0 := by decide
    simp only [hz, Prod.mk.injEq] at hd
    obtain ⟨rfl, rfl⟩ := hd
    refine ⟨_, _, rfl, .inl ?_⟩
    have := (hw.done _ _ _ hq).2
    omega
  | interrupted r =>
    simp only [if_true] at hd
    cases hs : Time.seconds2ticks r.sec r.nsec Delay.FREQUENCY with
    | none =>
      rw [hs] at hd
      simp only [Prod.mk.injEq] at hd
      exact absurd hd.1.symm hl.1
    | some x =>
      rw [hs] at hd
      simp only [Prod.mk.injEq] at hd
      obtain ⟨rfl, rfl⟩ := hd
      exact ⟨_, _, rfl, .inr ⟨d, s, r, hq⟩⟩

end Diminuto.Elapsedsleep
