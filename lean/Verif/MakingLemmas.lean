import Verif.MakingSpec

/-! Lemmas about initializing and finalizing timers and threads. -/

namespace Diminuto.Making

theorem holds_iff (s : S) (rs : List Res) : Holds s rs ↔ (s.live .attributes = decide (Res.attributes ∈ rs) ∧ s.live .mutexattr = decide (Res.mutexattr ∈ rs) ∧
    s.live .mutex = decide (Res.mutex ∈ rs) ∧ s.live .condition = decide (Res.condition ∈ rs) ∧ s.live .timer = decide (Res.timer ∈ rs)) := by
  have key : ∀ r, (s.live r = true ↔ r ∈ rs) ↔ s.live r = decide (r ∈ rs) := fun r => by
    rw [@Bool.eq_iff_iff (s.live r) (decide (r ∈ rs)), decide_eq_true_eq]
  constructor
  · intro h
    exact ⟨(key _).mp (h _), (key _).mp (h _), (key _).mp (h _), (key _).mp (h _), (key _).mp (h _)⟩
  · rintro ⟨h1, h2, h3, h4, h5⟩ r
    rw [key]
    cases r <;> assumption

/-- The priority that is set. -/
def clamp (lo hi p : Int) : Int := if hi < (if p < lo then lo else p) then hi else if p < lo then lo else p

theorem clamp_nearest (lo hi p : Int) (h : lo ≤ hi) : Nearest lo hi p (clamp lo hi p) := by
  simp only [Nearest, clamp]
  refine ⟨by split <;> split <;> omega, by split <;> split <;> omega, fun x h1 h2 => ?_⟩
  split <;> split <;> omega

/-- The attributes of a timer or a thread are there, and what is the case for it is the same after the scheduling attributes are set. -/
theorem schedule_sound (w : World) (s : S) (sch p : Int) (ha : s.live .attributes = true) :
    (schedule w s sch p).2.live = s.live ∧ (schedule w s sch p).2.ub = s.ub ∧
    (∃ l, (schedule w s sch p).2.log = l ++ s.log ∧ ((schedule w s sch p).1 = true ↔ ∀ c ∈ l, ok w c = true) ∧
      ∀ c ∈ l, c = .setInherit ∨ c = .setPolicy sch ∨ c = .minimum sch ∨ c = .maximum sch ∨ c = .setParam (clamp (w (.minimum sch)) (w (.maximum sch)) p)) := by
  simp only [schedule]
  cases h1 : ok w .setInherit with
  | false =>
    refine ⟨?_, by simp [ask, needs, makes, ha], [.setInherit], ?_⟩
    · funext r; simp [ask, h1]
    · simp [ask, h1]
  | true =>
    simp only [if_true]
    cases h2 : ok w (.setPolicy sch) with
    | false =>
      refine ⟨?_, by simp [ask, needs, makes, destroys, ha, h1], [.setPolicy sch, .setInherit], ?_⟩
      · funext r; simp [ask, h1, h2, makes, destroys]
      · simp [ask, h1, h2]
    | true =>
      simp only [if_true]
      by_cases h3 : w (.minimum sch) < 0
      · rw [if_pos h3]
        have h3' : ok w (.minimum sch) = false := by simp only [ok, decide_eq_false_iff_not]; omega
        refine ⟨?_, by simp [ask, needs, makes, destroys, ha, h1, h2], [.minimum sch, .setPolicy sch, .setInherit], ?_⟩
        · funext r; simp [ask, h1, h2, h3', makes, destroys]
        · simp [ask, h1, h2, h3']
      · rw [if_neg h3]
        have h3' : ok w (.minimum sch) = true := by simp only [ok, decide_eq_true_eq]; omega
        by_cases h4 : w (.maximum sch) < 0
        · rw [if_pos h4]
          have h4' : ok w (.maximum sch) = false := by simp only [ok, decide_eq_false_iff_not]; omega
          refine ⟨?_, by simp [ask, needs, makes, destroys, ha, h1, h2, h3'], [.maximum sch, .minimum sch, .setPolicy sch, .setInherit], ?_⟩
          · funext r; simp [ask, h1, h2, h3', h4', makes, destroys]
          · simp [ask, h1, h2, h3', h4']
        · rw [if_neg h4]
          have h4' : ok w (.maximum sch) = true := by simp only [ok, decide_eq_true_eq]; omega
          have e : (if w (.maximum sch) < (if p < w (.minimum sch) then w (.minimum sch) else p) then w (.maximum sch) else if p < w (.minimum sch) then w (.minimum sch) else p) =
              clamp (w (.minimum sch)) (w (.maximum sch)) p := rfl
          simp only [e]
          generalize clamp (w (.minimum sch)) (w (.maximum sch)) p = q
          refine ⟨?_, by simp [ask, needs, makes, destroys, ha, h1, h2, h3', h4'], [.setParam q, .maximum sch, .minimum sch, .setPolicy sch, .setInherit], ?_⟩
          · funext r; simp [ask, h1, h2, h3', h4', makes, destroys]
          · simp [ask, h1, h2, h3', h4']

/-- A condition is made where none is. -/
theorem condition_sound (w : World) (s : S) (h1 : s.live .mutexattr = false) (h2 : s.live .mutex = false) (h3 : s.live .condition = false) :
    (conditionInit w s).2.ub = s.ub ∧ (conditionInit w s).2.live .attributes = s.live .attributes ∧ (conditionInit w s).2.live .timer = s.live .timer ∧
    ((conditionInit w s).1 = true → (conditionInit w s).2.live .mutexattr = true ∧ (conditionInit w s).2.live .mutex = true ∧ (conditionInit w s).2.live .condition = true) ∧
    ∃ l, (conditionInit w s).2.log = l ++ s.log ∧ ((conditionInit w s).1 = true ↔ ∀ c ∈ l, ok w c = true) ∧ ∀ c ∈ l, c = .mutexattrInit ∨ c = .setType ∨ c = .mutexInit ∨ c = .condInit := by
  simp only [conditionInit, mutexInit]
  cases a : ok w .mutexattrInit with
  | false =>
    refine ⟨by simp [ask, needs, makes, h1], by simp [ask, a], by simp [ask, a], by simp, [.mutexattrInit], ?_⟩
    simp [ask, a]
  | true =>
    simp only [if_true]
    cases b : ok w .setType with
    | false =>
      refine ⟨by simp [ask, needs, makes, a, h1], by simp [ask, a, b, makes, destroys], by simp [ask, a, b, makes, destroys], by simp, [.setType, .mutexattrInit], ?_⟩
      simp [ask, a, b]
    | true =>
      simp only [if_true]
      cases d : ok w .mutexInit with
      | false =>
        refine ⟨by simp [ask, needs, makes, destroys, a, b, h1, h2], by simp [ask, a, b, d, makes, destroys], by simp [ask, a, b, d, makes, destroys], by simp, [.mutexInit, .setType, .mutexattrInit], ?_⟩
        simp [ask, a, b, d]
      | true =>
        cases e : ok w .condInit with
        | false =>
          refine ⟨by simp [ask, needs, makes, destroys, a, b, d, h1, h2, h3], by simp [ask, a, b, d, e, makes, destroys], by simp [ask, a, b, d, e, makes, destroys], by simp,
            [.condInit, .mutexInit, .setType, .mutexattrInit], ?_⟩
          simp [ask, a, b, d, e]
        | true =>
          refine ⟨by simp [ask, needs, makes, destroys, a, b, d, h1, h2, h3], by simp [ask, a, b, d, e, makes, destroys], by simp [ask, a, b, d, e, makes, destroys],
            by simp [ask, a, b, d, e, makes, destroys],
            [.condInit, .mutexInit, .setType, .mutexattrInit], ?_⟩
          simp [ask, a, b, d, e]

/-- A condition that is there is destroyed as far as possible. -/
theorem conditionFini_sound (w : World) (s : S) (h1 : s.live .mutexattr = true) (h2 : s.live .mutex = true) (h3 : s.live .condition = true) :
    (conditionFini w s).2.ub = s.ub ∧ (conditionFini w s).2.live .attributes = s.live .attributes ∧ (conditionFini w s).2.live .timer = s.live .timer ∧
    ((conditionFini w s).1 = true ↔ (conditionFini w s).2.live .mutexattr = false ∧ (conditionFini w s).2.live .mutex = false ∧ (conditionFini w s).2.live .condition = false) ∧
    ∃ l, (conditionFini w s).2.log = l ++ s.log ∧ ((conditionFini w s).1 = true ↔ ∀ c ∈ l, ok w c = true) := by
  simp only [conditionFini, mutexFini]
  cases a : ok w .broadcast with
  | false =>
    refine ⟨by simp [ask, needs, makes, h3], by simp [ask, a], by simp [ask, a], by simp [ask, a, h1], [.broadcast], ?_⟩
    simp [ask, a]
  | true =>
    simp only [if_true]
    cases b : ok w .condDestroy with
    | false =>
      refine ⟨by simp [ask, needs, makes, destroys, a, h3], by simp [ask, a, b, makes, destroys], by simp [ask, a, b, makes, destroys], by simp [ask, a, b, makes, destroys, h1], [.condDestroy, .broadcast], ?_⟩
      simp [ask, a, b]
    | true =>
      simp only [if_true]
      cases d : ok w .mutexDestroy with
      | false =>
        refine ⟨by simp [ask, needs, makes, destroys, a, b, h2, h3], by simp [ask, a, b, d, makes, destroys], by simp [ask, a, b, d, makes, destroys], by simp [ask, a, b, d, makes, destroys, h1],
          [.mutexDestroy, .condDestroy, .broadcast], ?_⟩
        simp [ask, a, b, d]
      | true =>
        simp only [if_true]
        cases e : ok w .mutexattrDestroy with
        | false =>
          refine ⟨by simp [ask, needs, makes, destroys, a, b, d, h1, h2, h3], by simp [ask, a, b, d, e, makes, destroys], by simp [ask, a, b, d, e, makes, destroys],
            by simp [ask, a, b, d, e, makes, destroys, h1], [.mutexattrDestroy, .mutexDestroy, .condDestroy, .broadcast], ?_⟩
          simp [ask, a, b, d, e]
        | true =>
          refine ⟨by simp [ask, needs, makes, destroys, a, b, d, h1, h2, h3], by simp [ask, a, b, d, e, makes, destroys], by simp [ask, a, b, d, e, makes, destroys],
            by simp [ask, a, b, d, e, makes, destroys], [.mutexattrDestroy, .mutexDestroy, .condDestroy, .broadcast], ?_⟩
          simp [ask, a, b, d, e]

/-- A call that has nothing to do with scheduling. -/
def Plain (c : Call) : Prop := (∀ x, c ≠ .setPolicy x) ∧ ∀ q, c ≠ .setParam q

/-- All that is to be known about the initialization of a timer. -/
theorem timerInit_sound (w : World) (periodic : Bool) (fp : Option Nat) (signum sch p : Int) :
    let r := timerInit w fresh periodic fp signum sch p
    r.2.ub = false ∧ (r.1.isSome = true ↔ One fp signum ∧ Fine w r.2) ∧ (r.1 = none → r.2.live .timer = false) ∧
    (∀ t, r.1 = some t → Holds r.2 whole ∧ t = ⟨fp, periodic, .idle⟩ ∧ r.2.log.head? = some (.timerCreate (asked fp signum))) ∧
    (∀ c ∈ r.2.log, Plain c ∨ (fp.isSome = true ∧ (c = .setPolicy sch ∨ c = .setParam (clamp (w (.minimum sch)) (w (.maximum sch)) p)))) := by
  intro r
  show (timerInit w fresh periodic fp signum sch p).2.ub = false ∧ _
  simp only [r]
  clear r
  simp only [timerInit]
  cases a : ok w .attrInit with
  | false =>
    simp only [Bool.false_eq_true, if_false]
    refine ⟨by simp [ask, needs, makes, fresh], ⟨fun h => (nomatch h), fun h => ?_⟩, fun _ => by simp [ask, a, fresh], fun t h => (nomatch h), ?_⟩
    · have := h.2 .attrInit (by simp [ask])
      rw [a] at this; exact nomatch this
    · simp [ask, fresh, Plain]
  | true =>
    simp only [if_true]
    -- The scheduling attributes.
    have hs0 : (ask w fresh .attrInit).live = fun r => decide (r = .attributes) := by
      funext r; cases r <;> simp [ask, a, makes, destroys, fresh]
    have hu0 : (ask w fresh .attrInit).ub = false := by simp [ask, needs, makes, fresh]
    have hl0 : (ask w fresh .attrInit).log = [.attrInit] := by simp [ask, fresh]
    have hsch : ∃ b s, (if fp.isSome = true then schedule w (ask w fresh .attrInit) sch p else (true, ask w fresh .attrInit)) = (b, s) ∧ s.live = (fun r => decide (r = .attributes)) ∧ s.ub = false ∧
        (b = true ↔ Fine w s) ∧
        ∀ c ∈ s.log, Plain c ∨ (fp.isSome = true ∧ (c = .setPolicy sch ∨ c = .setParam (clamp (w (.minimum sch)) (w (.maximum sch)) p))) := by
      cases hf : fp.isSome with
      | false =>
        refine ⟨true, _, if_neg (by simp), hs0, hu0, ?_, ?_⟩
        · simp [Fine, hl0, a]
        · simp [hl0, Plain]
      | true =>
        obtain ⟨h1, h2, l, h3, h4, h5⟩ := schedule_sound w (ask w fresh .attrInit) sch p (by rw [hs0]; rfl)
        refine ⟨(schedule w (ask w fresh .attrInit) sch p).1, (schedule w (ask w fresh .attrInit) sch p).2, if_pos rfl, by rw [h1, hs0], by rw [h2, hu0], ?_, ?_⟩
        · rw [h4, Fine, h3, hl0]
          simp only [List.mem_append, List.mem_singleton]
          exact ⟨fun h c hc => hc.elim (h c) (fun e => e ▸ a), fun h c hc => h c (Or.inl hc)⟩
        · rw [h3, hl0]
          intro c hc
          rcases List.mem_append.mp hc with hc | hc
          · rcases h5 c hc with rfl | rfl | rfl | rfl | rfl
            · exact Or.inl (by simp [Plain])
            · exact Or.inr ⟨rfl, Or.inl rfl⟩
            · exact Or.inl (by simp [Plain])
            · exact Or.inl (by simp [Plain])
            · exact Or.inr ⟨rfl, Or.inr rfl⟩
          · rw [List.mem_singleton.mp hc]; exact Or.inl (by simp [Plain])
    obtain ⟨b, s, e, hl, hu, hb, hlog⟩ := hsch
    simp only [e]
    cases b with
    | false =>
      refine ⟨hu, ⟨fun h => (nomatch h), fun h => (nomatch hb.mpr h.2)⟩, fun _ => by simp [hl], fun t h => (nomatch h), hlog⟩
    | true =>
      have hF := hb.mp rfl
      obtain ⟨c1, c2, c3, c4, l, c5, c6, c7⟩ := condition_sound w s (by simp [hl]) (by simp [hl]) (by simp [hl])
      have hP : ∀ c ∈ (conditionInit w s).2.log, Plain c ∨ (fp.isSome = true ∧ (c = .setPolicy sch ∨ c = .setParam (clamp (w (.minimum sch)) (w (.maximum sch)) p))) := by
        rw [c5]
        intro c hc
        rcases List.mem_append.mp hc with hc | hc
        · rcases c7 c hc with rfl | rfl | rfl | rfl <;> exact Or.inl (by simp [Plain])
        · exact hlog c hc
      have hF' : (conditionInit w s).1 = true ↔ Fine w (conditionInit w s).2 := by
        rw [c6, Fine, c5]
        exact ⟨fun h c hc => (List.mem_append.mp hc).elim (h c) (hF c), fun h c hc => h c (List.mem_append.mpr (Or.inl hc))⟩
      generalize hcond : conditionInit w s = cr at *
      obtain ⟨b, s'⟩ := cr
      simp only [hcond]
      cases b with
      | false =>
        refine ⟨(show s'.ub = s.ub from c1).trans hu, ⟨fun h => (nomatch h), fun h => (nomatch hF'.mpr h.2)⟩, fun _ => by rw [show s'.live .timer = s.live .timer from c3]; simp [hl], fun t h => (nomatch h), hP⟩
      | true =>
        have hF2 := hF'.mp rfl
        obtain ⟨d1, d2, d3⟩ := c4 rfl
        have d4 : s'.live .attributes = true := by rw [show s'.live .attributes = s.live .attributes from c2]; simp [hl]
        have d5 : s'.live .timer = false := by rw [show s'.live .timer = s.live .timer from c3]; simp [hl]
        have d6 : s'.ub = false := by rw [← hu]; exact c1
        -- Making the timer.
        have hcreate : ∀ n : Notify, ∀ t : Timer, One fp signum → n = (asked fp signum) → t = ⟨fp, periodic, .idle⟩ →
            (create w s' t n).2.ub = false ∧ ((create w s' t n).1.isSome = true ↔ One fp signum ∧ Fine w (create w s' t n).2) ∧
            ((create w s' t n).1 = none → (create w s' t n).2.live .timer = false) ∧
            (∀ t', (create w s' t n).1 = some t' → Holds (create w s' t n).2 whole ∧ t' = ⟨fp, periodic, .idle⟩ ∧
              (create w s' t n).2.log.head? = some (.timerCreate (asked fp signum))) ∧
            (∀ c ∈ (create w s' t n).2.log, Plain c ∨ (fp.isSome = true ∧ (c = .setPolicy sch ∨ c = .setParam (clamp (w (.minimum sch)) (w (.maximum sch)) p)))) := by
          intro n t hone hn ht
          simp only [create]
          refine ⟨?_, ?_, ?_, ?_, ?_⟩
          · cases n <;> simp [ask, needs, makes, d4, d5, d6]
          · cases o : ok w (.timerCreate n) with
            | false =>
              refine ⟨fun h => (nomatch h), fun h => ?_⟩
              have := h.2 (.timerCreate n) (by simp [ask])
              rw [o] at this; exact nomatch this
            | true =>
              refine ⟨fun _ => ⟨hone, ?_⟩, fun _ => rfl⟩
              intro c hc
              simp only [ask, List.mem_cons] at hc
              rcases hc with rfl | hc
              · exact o
              · exact hF2 c hc
          · cases o : ok w (.timerCreate n) with
            | false => intro _; simp [ask, o, d5]
            | true => intro h; exact nomatch h
          · cases o : ok w (.timerCreate n) with
            | false => intro _ h; exact nomatch h
            | true =>
              intro t' h
              injection h with h
              refine ⟨?_, by rw [← h, ht], by rw [← hn]; rfl⟩
              rw [holds_iff]
              simp only [] at d1 d2 d3
              simp [ask, o, makes, destroys, whole, d1, d2, d3, d4]
          · intro c hc
            simp only [ask, List.mem_cons] at hc
            rcases hc with rfl | hc
            · exact Or.inl (by simp [Plain])
            · exact hP c hc
        cases hfp : fp with
        | some f =>
          simp only [hfp] at hcreate hP
          by_cases h0 : 0 < signum
          · simp only [h0, if_true]
            refine ⟨d6, ⟨fun h => (nomatch h), fun h => ?_⟩, fun _ => d5, fun t h => (nomatch h), hP⟩
            rcases h.1 with ⟨-, h⟩ | ⟨h, -⟩
            · omega
            · exact nomatch h
          · simp only [h0, if_false]
            exact hcreate _ _ (Or.inl ⟨rfl, by omega⟩) rfl rfl
        | none =>
          simp only [hfp] at hcreate hP
          by_cases h0 : 0 < signum
          · simp only [h0, if_true]
            exact hcreate _ _ (Or.inr ⟨rfl, h0⟩) rfl rfl
          · simp only [h0, if_false]
            refine ⟨d6, ⟨fun h => (nomatch h), fun h => ?_⟩, fun _ => d5, fun t h => (nomatch h), hP⟩
            rcases h.1 with ⟨h, -⟩ | ⟨-, h⟩
            · exact nomatch h
            · omega

end Diminuto.Making
