import Verif.MeterLemmas

/-!
# Property C69: the meter
-/

namespace Diminuto.Meter

/-! ## Properties -/

/-- C69: calls fail exactly if time goes back or the number of events is greater than the greatest `size_t`. -/
theorem meter_accepts (rate : Rating) (start : BitVec 64) (h : History) :
    (∀ b ∈ (run rate (reset start) h).2, b = true) ↔ Sorted start h ∧ total h < 2 ^ 64 := by
  have := (run_inv (rate := rate) h [] _ (inv_reset rate start)).1
  rw [this]
  simp only [latest]
  apply and_congr_right
  intro _
  have t0 : total [] = 0 := rfl
  constructor
  · rintro (rfl | h)
    · rw [t0]; omega
    · omega
  · intro h
    exact Or.inr (by omega)

/-- C69: what a meter says after calls that succeeded. -/
theorem meter_measures (rate : Rating) (start : BitVec 64) (h : History) (hs : Sorted start h) (ht : total h < 2 ^ 64) :
    let m := (run rate (reset start) h).1
    m.events.toNat = total h ∧ m.burst.toNat = largest h ∧ m.count.toNat = calls h ∧ m.start = start ∧ m.last = latest start h ∧
    sustained rate m = (if total h = 0 then .finite 0 else if latest start h = start then .infinite
      else .finite (rate (BitVec.ofNat 64 (total h)) (latest start h - start))) ∧
    IsPeak (rates rate false start h) m.peak := by
  have hi := (run_inv (rate := rate) h [] _ (inv_reset rate start)).2 ((meter_accepts rate start h).mpr ⟨hs, ht⟩)
  simp only [List.nil_append] at hi
  have hle : ∀ (h : History) s, Sorted s h → s ≤ latest s h := by
    intro h
    induction h with
    | nil => intro s _; exact BitVec.le_refl s
    | cons x h ih => intro s hs; exact BitVec.le_trans hs.1 (ih _ hs.2)
  have hl := hle h start hs
  refine ⟨hi.events, hi.burst, hi.count, hi.begun, hi.last, ?_, hi.peak⟩
  have e0 : (run rate (reset start) h).1.events = BitVec.ofNat 64 (total h) := by
    apply BitVec.eq_of_toNat_eq
    rw [hi.events, BitVec.toNat_ofNat, Nat.mod_eq_of_lt ht]
  have e1 : BitVec.ofNat 64 (total h) = 0#64 ↔ total h = 0 := by
    rw [← BitVec.toNat_inj, BitVec.toNat_ofNat, Nat.mod_eq_of_lt ht]
    simp
  have e2 : latest start h ≤ start ↔ latest start h = start := by
    constructor
    · intro h2
      exact BitVec.le_antisymm h2 hl
    · intro e
      rw [e]
      exact BitVec.le_refl start
  unfold sustained
  rw [e0, hi.last, hi.begun]
  simp only [e1, e2]

/-- C69: the peak rate is the greatest rate from one call with events to the next, if there are no calls without events. -/
theorem meter_peak_partial (rate : Rating) (start : BitVec 64) (h : History) (hs : Sorted start h) (ht : total h < 2 ^ 64)
    (hu : ∀ x ∈ h, x.2 ≠ 0#64) : IsPeak (eventRates rate h) (run rate (reset start) h).1.peak := by
  have := (meter_measures rate start h hs ht).2.2.2.2.2.2
  have e : eventRates rate h = rates rate false start h := by
    have hf : h.filter (fun x => x.2 ≠ 0#64) = h := List.filter_eq_self.mpr (by simpa using hu)
    unfold eventRates
    simp only [hf]
    cases h with
    | nil => rfl
    | cons x h =>
      rw [rates, if_neg (hu x (by simp)), zip_rates rate x h (fun z hz => hu z (by simp [hz]))]
      rfl
  rw [e]
  exact this

/-- It is not so with calls without events: an event, an update 99 ticks later, and an event one tick later: the peak rate is said to be 1000000000 per second
instead of 10000000. -/
theorem meter_peak_counterexample :
    (run exactRate (reset 0#64) [(0#64, 1#64), (99#64, 0#64), (100#64, 1#64)]).1.peak = .finite 1000000000 ∧
    eventRates exactRate [(0#64, 1#64), (99#64, 0#64), (100#64, 1#64)] = [.finite 10000000] := by decide +kernel

/-- The sustained rate can exceed the peak rate, because the first events count for it. -/
theorem meter_sustained_counterexample :
    let m := (run exactRate (reset 0#64) [(100#64, 10#64), (200#64, 1#64)]).1
    m.peak = .finite 10000000 ∧ sustained exactRate m = .finite 55000000 := by decide +kernel

/-- C69: a call that fails because time goes back changes nothing; after another failure all calls with events fail. -/
theorem meter_failures (rate : Rating) (m : Meter) (now events : BitVec 64) (h : (add rate m now events).2 = false) :
    (now < m.last ∧ (add rate m now events).1 = m) ∨
    (m.last ≤ now ∧ (add rate m now events).1.last = now ∧
      ∀ h' : History, (∀ x ∈ h', x.2 ≠ 0#64) → ∀ b ∈ (run rate (add rate m now events).1 h').2, b = false) := by
  by_cases hlt : now < m.last
  · left
    refine ⟨hlt, ?_⟩
    unfold add
    rw [if_pos hlt]
  · right
    have hle : m.last ≤ now := by
      rw [BitVec.not_lt] at hlt
      exact hlt
    -- a meter that has overflowed
    have stuck : ∀ (h' : History) (m' : Meter), m'.count ≠ 0#64 → (m'.count = OVERFLOW ∨ m'.events = OVERFLOW) → (∀ x ∈ h', x.2 ≠ 0#64) →
        ∀ b ∈ (run rate m' h').2, b = false := by
      intro h'
      induction h' with
      | nil => intro m' _ _ _ b hb; simp [run] at hb
      | cons x h' ih =>
        intro m' hc ho hx
        have hx0 := hx x (by simp)
        have hxn : x.2.toNat ≠ 0 := fun e => hx0 (BitVec.eq_of_toNat_eq e)
        have key : (add rate m' x.1 x.2).2 = false ∧ (add rate m' x.1 x.2).1.count ≠ 0#64 ∧
            ((add rate m' x.1 x.2).1.count = OVERFLOW ∨ (add rate m' x.1 x.2).1.events = OVERFLOW) := by
          unfold add
          by_cases l : x.1 < m'.last
          · rw [if_pos l]; exact ⟨rfl, hc, ho⟩
          · rw [if_neg l, if_neg hx0, if_neg hc]
            by_cases l2 : OVERFLOW - m'.count < 1#64
            · rw [if_pos l2]; exact ⟨rfl, show OVERFLOW ≠ 0#64 by decide, Or.inl rfl⟩
            · rw [if_neg l2]
              have he : m'.events = OVERFLOW := by
                rcases ho with ho | ho
                · rw [ho] at l2; exact absurd (by decide) l2
                · exact ho
              rw [if_pos (by rw [he, BitVec.sub_self, BitVec.lt_def]; simp; omega)]
              exact ⟨rfl, hc, Or.inr rfl⟩
        intro b hb
        simp only [run, List.mem_cons] at hb
        rcases hb with rfl | hb
        · exact key.1
        · exact ih _ key.2.1 key.2.2 (fun y hy => hx y (by simp [hy])) b hb
    unfold add at h ⊢
    rw [if_neg hlt] at h ⊢
    by_cases h0 : events = 0#64
    · rw [if_pos h0] at h; simp at h
    · rw [if_neg h0] at h ⊢
      by_cases h1 : m.count = 0#64
      · rw [if_pos h1] at h; simp at h
      · rw [if_neg h1] at h ⊢
        by_cases h2 : OVERFLOW - m.count < 1#64
        · rw [if_pos h2]
          exact ⟨hle, rfl, fun h' hx => stuck h' _ (show OVERFLOW ≠ 0#64 by decide) (Or.inl rfl) hx⟩
        · rw [if_neg h2] at h ⊢
          by_cases h3 : OVERFLOW - m.events < events
          · rw [if_pos h3]
            exact ⟨hle, rfl, fun h' hx => stuck h' _ h1 (Or.inr rfl) hx⟩
          · rw [if_neg h3] at h
            split at h <;> simp at h

/-- The hypotheses hold for a history with events in the same tick. -/
example : Sorted 5#64 [(10#64, 2#64), (10#64, 3#64), (20#64, 1#64)] ∧ total [(10#64, 2#64), (10#64, 3#64), (20#64, 1#64)] < 2 ^ 64 ∧
    (run exactRate (reset 5#64) [(10#64, 2#64), (10#64, 3#64), (20#64, 1#64)]).1.peak = .infinite := by
  refine ⟨?_, ?_, ?_⟩
  · simp [Sorted]
  · decide
  · decide +kernel

end Diminuto.Meter
