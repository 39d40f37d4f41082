import Verif.DelaySpec
import Verif.TimeLemmas

/-!
# Properties: delays
-/

namespace Diminuto.Delay
open Time (chk ticks2wholeseconds ticks2fractionalseconds seconds2ticks Fits)

variable {σ : Type}

theorem machine_honest : Honest machine (fun s => s.1) where
  done := by
    intro t s s' h
    simp only [machine] at h
    split at h
    · rename_i hv
      refine ⟨hv, ?_⟩
      split at h
      · simp at h; rw [← h]; simp
      · split at h
        · simp at h; rw [← h]; simp
        · simp at h
    · simp at h
  interrupted := by
    intro t r s s' h
    simp only [machine] at h
    split at h
    · rename_i hv
      split at h
      · simp at h
      · split at h
        · simp at h
        · rename_i a l _ hn
          simp only [Prod.mk.injEq, Answer.interrupted.injEq] at h
          obtain ⟨rfl, rfl⟩ := h
          simp only [Timespec.Valid, Timespec.ns] at *
          refine ⟨hv, ?_, ?_, ?_, ?_⟩ <;> omega
    · simp at h
  failed := by
    intro t s s' h
    simp only [machine] at h
    split at h
    · split at h
      · simp at h
      · split at h <;> simp at h
    · rename_i hv
      simp at h
      exact ⟨hv, by rw [h]⟩

theorem machine_signals : Signals machine (fun s => s.2.length) := by
  intro t r s s' h
  simp only [machine] at h
  split at h
  · split at h
    · simp at h
    · rename_i a l hs
      split at h
      · simp at h
      · simp only [Prod.mk.injEq] at h
        rw [← h.2]; simp only [hs, List.length_cons]; omega
  · simp at h

/-- What the loop does with a valid time. -/
theorem loop_valid {w : World σ} {clock : σ → Int} (hw : Honest w clock) (i : Bool) : ∀ (n : Nat) (d : Timespec) (s : σ), d.Valid →
    match loop w i n d d s with
    | (some r, s') => r.Valid ∧ r.ns ≤ d.ns ∧ clock s + d.ns ≤ clock s' + r.ns ∧ (i = false → r = ⟨0, 0⟩)
    | (none, s') => clock s ≤ clock s' := by
  intro n
  induction n with
  | zero => intro d s _; exact Int.le_refl _
  | succ n ih =>
    intro d s hd
    rw [loop]
    rcases h : w.nanosleep d s with ⟨a, s'⟩
    cases a with
    | done =>
      have := hw.done _ _ _ h
      clear ih
      simp only [Timespec.Valid, Timespec.ns] at *
      exact ⟨by omega, by omega, by omega, by simp⟩
    | interrupted r =>
      have h1 := hw.interrupted _ _ _ _ h
      cases i with
      | true => exact ⟨h1.2.1, h1.2.2.1, h1.2.2.2.2, by intro hf; cases hf⟩
      | false =>
        have h2 := ih r s' h1.2.1
        simp only [Bool.false_eq_true, if_false]
        revert h2
        split
        · intro h2; exact ⟨h2.1, by omega, by omega, fun _ => h2.2.2.2 rfl⟩
        · intro h2; omega
    | failed => exact absurd hd (hw.failed _ _ _ h).1

theorem loop_invalid {w : World σ} {clock : σ → Int} (hw : Honest w clock) (i : Bool) (n : Nat) (d : Timespec) (s : σ) (hd : ¬ d.Valid) :
    ∃ s', loop w i (n + 1) d d s = (some d, s') ∧ clock s' = clock s := by
  rw [loop]
  rcases h : w.nanosleep d s with ⟨a, s'⟩
  cases a with
  | done => exact absurd (hw.done _ _ _ h).1 hd
  | interrupted r => exact absurd (hw.interrupted _ _ _ _ h).1 hd
  | failed => exact ⟨s', rfl, (hw.failed _ _ _ h).2⟩

theorem toInt_fits (t : BitVec 64) : Fits t.toInt := by
  have h1 := BitVec.le_toInt t
  have h2 := BitVec.toInt_lt (x := t)
  simp only [Fits]
  omega

/-- Times of at most as many ticks as there are in 64 bits are converted exactly. -/
theorem seconds2ticks_exact (r : Timespec) (h : r.Valid) (hf : Fits r.ns) : seconds2ticks r.sec r.nsec FREQUENCY = some r.ns := by
  simp only [Timespec.Valid, Timespec.ns, Fits] at *
  have h1 : Time.units2ticks r.sec 1 = some (r.sec * 1000000000) := by
    simp only [Time.units2ticks]
    rw [if_neg (by decide), if_pos (by decide), Time.units_one]
    exact Time.chk_of (by simp only [Fits]; omega)
  have h2 : Time.units2ticks r.nsec FREQUENCY = some r.nsec := by
    simp only [Time.units2ticks]
    rw [if_neg (by decide), if_neg (by decide)]
  simp only [seconds2ticks, h1, h2, Option.bind_some]
  exact Time.chk_of (by simp only [Fits]; omega)

theorem split_whole (t : Int) (hf : Fits t) : ∃ d : Timespec, ticks2wholeseconds t = some d.sec ∧ ticks2fractionalseconds t FREQUENCY = some d.nsec ∧ d.ns = t ∧ (d.Valid ↔ 0 ≤ t) ∧
    seconds2ticks d.sec d.nsec FREQUENCY = some t := by
  refine ⟨⟨t.tdiv 1000000000, t.tmod 1000000000⟩, Time.wholeseconds_eq t hf, ?_, ?_, ?_, ?_⟩
  · have : Time.mod? t Time.frequency = some (t.tmod 1000000000) := by
      simp only [Time.mod?, Time.div?]
      rw [if_neg (by decide), Time.chk_of]
      · rfl
      · simp only [Time.frequency]
        rw [Time.tdiv_eq _ _ (by decide)]
        simp only [Fits] at *
        split <;> omega
    simp only [ticks2fractionalseconds, this, Option.bind_some, Time.ticks2units]
    rw [if_neg (by decide), if_neg (by decide)]
  · simp only [Timespec.ns]
    rw [Time.tdiv_eq _ _ (by decide), Time.tmod_eq _ _ (by decide)]
    split <;> omega
  · simp only [Timespec.Valid]
    rw [Time.tdiv_eq _ _ (by decide), Time.tmod_eq _ _ (by decide)]
    split <;> omega
  · simp only [seconds2ticks, Time.units2ticks]
    rw [if_neg (by decide), if_pos (by decide), Time.units_one, if_neg (by decide), if_neg (by decide)]
    simp only [Option.bind_some]
    rw [Time.tdiv_eq _ _ (by decide), Time.tmod_eq _ _ (by decide)]
    simp only [Fits] at hf
    rw [Time.chk_of (by simp only [Fits]; split <;> omega)]
    simp only [Option.bind_some]
    rw [Time.chk_of (by simp only [Fits]; split <;> omega)]
    congr 1
    split <;> omega

/-- C93.  A delay is never undefined.  When it returns, the time that has passed and the ticks it returns are at least what was asked for, and it returns no more than that; if it is not
interruptible it returns zero, so all the time has passed. -/
theorem delay_lasts {w : World σ} {clock : σ → Int} (hw : Honest w clock) (n : Nat) (ticks : BitVec 64) (i : Bool) (s s' : σ) (o : Outcome) (ht : ticks.toNat < 2 ^ 63)
    (h : delay w n ticks i s = (o, s')) :
    o ≠ .undefined ∧ ∀ r, o = .returned r → clock s + ticks.toNat ≤ clock s' + r.toNat ∧ r.toNat ≤ ticks.toNat ∧ (i = false → r = 0#64) := by
  obtain ⟨d, h1, h2, h3, h4, -⟩ := split_whole ticks.toInt (toInt_fits ticks)
  have hi : ticks.toInt = ticks.toNat := by rw [BitVec.toInt_eq_toNat_cond, if_pos (by omega)]
  have hd : d.Valid := h4.mpr (by omega)
  have hl := loop_valid hw i n d s hd
  simp only [delay, h1, h2] at h
  rcases hr : loop w i n d d s with ⟨r, t⟩
  rw [hr] at hl
  have he : (Timespec.mk d.sec d.nsec) = d := rfl
  rw [he, hr] at h
  cases r with
  | none =>
    simp only [Prod.mk.injEq] at h
    obtain ⟨rfl, rfl⟩ := h
    exact ⟨by simp, by simp⟩
  | some r =>
    simp only [] at h hl
    have hpos : 0 ≤ r.ns := by have := hl.1; simp only [Timespec.Valid, Timespec.ns] at *; omega
    rw [seconds2ticks_exact r hl.1 (by simp only [Fits]; omega)] at h
    simp only [Prod.mk.injEq] at h
    obtain ⟨rfl, rfl⟩ := h
    refine ⟨by simp, ?_⟩
    intro q hq
    cases hq
    have hn : (BitVec.ofInt 64 r.ns).toNat = r.ns := by
      rw [BitVec.toNat_ofInt]; omega
    refine ⟨by omega, by omega, ?_⟩
    intro hi'
    rw [hl.2.2.2 hi']; rfl

/-- Three seconds, which two signals interrupt: a delay that ignores them takes three seconds, another one returns what is left. -/
example : delay machine 9 3000000000#64 false (7, [500, 1000000007]) = (.returned 0#64, 3000000007, []) ∧
    delay machine 9 3000000000#64 true (7, [1500000007]) = (.returned 1500000000#64, 1500000007, []) := by decide +kernel

/-- C93.  A delay that ignores signals returns if only finitely many of them arrive; one that does not returns after one call. -/
theorem delay_returns {w : World σ} {clock : σ → Int} {pending : σ → Nat} (hw : Honest w clock) (hs : Signals w pending) (n : Nat) (ticks : BitVec 64) (i : Bool) (s : σ)
    (hn : i = false → pending s < n) (h1 : 0 < n) : ∃ r s', delay w n ticks i s = (.returned r, s') := by
  have hl : ∀ (n : Nat) (d : Timespec) (s : σ), (i = false → pending s < n) → 0 < n → (loop w i n d d s).1 ≠ none := by
    intro n
    induction n with
    | zero => intro _ _ _ h; omega
    | succ n ih =>
      intro d s hp _
      rw [loop]
      rcases h : w.nanosleep d s with ⟨a, s'⟩
      cases a with
      | done => simp
      | failed => simp
      | interrupted r =>
        cases hi : i with
        | true => simp
        | false =>
          have := hs _ _ _ _ h
          have := hp hi
          simp only [Bool.false_eq_true, if_false]
          have h3 := ih r s' (by intro _; omega) (by omega)
          rw [hi] at h3; exact h3
  obtain ⟨d, e1, e2, e3, e4, e5⟩ := split_whole ticks.toInt (toInt_fits ticks)
  have hne := hl n d s hn h1
  simp only [delay, e1, e2]
  have he : (Timespec.mk d.sec d.nsec) = d := rfl
  rw [he]
  rcases hr : loop w i n d d s with ⟨r, t⟩
  rw [hr] at hne
  cases r with
  | none => exact absurd rfl hne
  | some r =>
    simp only []
    by_cases hd : d.Valid
    · have hv := loop_valid hw i n d s hd
      rw [hr] at hv
      simp only [] at hv
      have hpos : 0 ≤ r.ns := by have := hv.1; simp only [Timespec.Valid, Timespec.ns] at *; omega
      have := toInt_fits ticks
      rw [seconds2ticks_exact r hv.1 (by simp only [Fits] at *; omega)]
      exact ⟨_, _, rfl⟩
    · obtain ⟨m, rfl⟩ : ∃ m, n = m + 1 := ⟨n - 1, by omega⟩
      obtain ⟨t', ht, -⟩ := loop_invalid hw i m d s hd
      rw [hr] at ht
      simp only [Prod.mk.injEq, Option.some.injEq] at ht
      rw [ht.1, e5]
      exact ⟨_, _, rfl⟩

example : ∃ r s', delay machine 3 3000000000#64 false (7, [500, 1000000007]) = (.returned r, s') :=
  delay_returns machine_honest machine_signals 3 _ _ _ (by decide) (by decide)

/-- C93.  A number of ticks that is negative when it is converted is refused: all of it is returned, at once. -/
theorem delay_negative {w : World σ} {clock : σ → Int} (hw : Honest w clock) (n : Nat) (ticks : BitVec 64) (i : Bool) (s : σ) (ht : 2 ^ 63 ≤ ticks.toNat) :
    ∃ s', delay w (n + 1) ticks i s = (.returned ticks, s') ∧ clock s' = clock s := by
  obtain ⟨d, e1, e2, e3, e4, e5⟩ := split_whole ticks.toInt (toInt_fits ticks)
  have hi : ticks.toInt < 0 := by
    have := ticks.isLt
    rw [BitVec.toInt_eq_toNat_cond, if_neg (by omega)]; omega
  have hd : ¬ d.Valid := by rw [e4]; omega
  obtain ⟨t', ht', hc⟩ := loop_invalid hw i n d s hd
  refine ⟨t', ?_, hc⟩
  simp only [delay, e1, e2]
  have he : (Timespec.mk d.sec d.nsec) = d := rfl
  rw [he, ht']
  simp only [e5]
  rw [BitVec.ofInt_toInt]

example : delay machine 1 (BitVec.ofInt 64 (-5)) false (7, []) = (.returned (BitVec.ofInt 64 (-5)), 7, []) := by decide +kernel

/-- C93.  Every time the kernel is asked to sleep for less than 2^63 ticks, the time is a valid one (an invalid one is refused by it): no request of a delay fails. -/
theorem delay_asks {w : World σ} {clock : σ → Int} (hw : Honest w clock) (n : Nat) (ticks : BitVec 64) (i : Bool) (s : σ) (ht : ticks.toNat < 2 ^ 63) :
    ∀ t ∈ (delay (noting w) n ticks i (s, [])).2.2, t.Valid ∧ t.ns ≤ ticks.toNat := by
  obtain ⟨d, h1, h2, h3, h4, -⟩ := split_whole ticks.toInt (toInt_fits ticks)
  have hi : ticks.toInt = ticks.toNat := by rw [BitVec.toInt_eq_toNat_cond, if_pos (by omega)]
  have hd : d.Valid := h4.mpr (by omega)
  have key : ∀ (n : Nat) (d : Timespec) (s : σ) (l : List Timespec), d.Valid → d.ns ≤ ticks.toNat → (∀ t ∈ l, t.Valid ∧ t.ns ≤ ticks.toNat) →
      ∀ t ∈ (loop (noting w) i n d d (s, l)).2.2, t.Valid ∧ t.ns ≤ ticks.toNat := by
    intro n
    induction n with
    | zero => intro _ _ _ _ _ hl; exact hl
    | succ n ih =>
      intro d s l hd hle hl
      have hl' : ∀ t ∈ d :: l, t.Valid ∧ t.ns ≤ ticks.toNat := by
        intro t ht
        rcases List.mem_cons.mp ht with rfl | ht
        · exact ⟨hd, hle⟩
        · exact hl t ht
      rw [loop]
      rcases h : w.nanosleep d s with ⟨a, s'⟩
      simp only [noting, h]
      cases a with
      | done => exact hl'
      | failed => exact hl'
      | interrupted r =>
        have hr := hw.interrupted _ _ _ _ h
        cases hib : i with
        | true => exact hl'
        | false =>
          simp only [Bool.false_eq_true, if_false]
          have := ih r s' (d :: l) hr.2.1 (by omega) hl'
          rw [hib] at this
          exact this
  have hk := key n d s [] hd (by omega) (by simp)
  simp only [delay, h1, h2]
  have he : (Timespec.mk d.sec d.nsec) = d := rfl
  rw [he]
  rcases hr : loop (noting w) i n d d (s, []) with ⟨r, t⟩
  rw [hr] at hk
  cases r with
  | none => exact hk
  | some r =>
    simp only []
    split <;> exact hk

example : (delay (noting machine) 9 3000000000#64 false ((7, [1500000007]), [])).2.2 = [⟨1, 500000000⟩, ⟨3, 0⟩] := by decide +kernel

end Diminuto.Delay
