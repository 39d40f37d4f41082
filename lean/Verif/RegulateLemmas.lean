import Verif.RegulateSpec
import Verif.AdcProps
import Verif.ControllerProps
import Verif.LuxtoolLemmas

/-! # Lemmas about the tool that regulates a voltage -/

namespace Diminuto.Regulate

open Controller (Short Tame Bounded Ordered LegalOutput)

variable {rnd : Rat → Rat}

theorem near_abs (h : Adc.Rounding rnd) (x : Rat) : |rnd x - x| ≤ |x| / 2 ^ 53 := by
  rcases le_total 0 x with g | g
  · have c := h.near x g
    rw [abs_of_nonneg g, abs_le]
    constructor <;> linarith [c.1, c.2]
  · have c := h.near (-x) (by linarith)
    rw [h.odd] at c
    rw [abs_of_nonpos g, abs_le]
    constructor <;> linarith [c.1, c.2]

theorem trunc_near (x : Rat) : |(trunc x : Rat) - x| < 1 ∧ (0 ≤ x → (trunc x : Rat) ≤ x) := by
  unfold trunc
  by_cases g : 0 ≤ x
  · rw [if_pos g, abs_lt]
    have a := Int.floor_le x
    have b := Int.lt_floor_add_one x
    exact ⟨⟨by linarith, by linarith⟩, fun _ => a⟩
  · rw [if_neg g, abs_lt]
    have a := Int.le_ceil x
    have b := Int.ceil_lt_add_one x
    exact ⟨⟨by linarith, by linarith⟩, fun k => absurd k g⟩

/-- What is truncated. -/
theorem scaled_near (h : Adc.Rounding rnd) (v : Rat) (hv : Sensed v) : |rnd (rnd (v + 1 / 2) * 1000) - (1000 * v + 500)| ≤ 1 / 1000000 := by
  unfold Sensed at hv
  have a := near_abs h (v + 1 / 2)
  have b := near_abs h (rnd (v + 1 / 2) * 1000)
  rw [abs_le] at hv
  have c : |v + 1 / 2| ≤ 7 := by
    rw [abs_le]
    constructor <;> linarith [hv.1, hv.2]
  generalize rnd (v + 1 / 2) = u at *
  generalize |v + 1 / 2| = w at *
  rw [abs_le] at a
  have d : |u * 1000| ≤ 8000 := by
    rw [abs_le]
    have a1 := a.1
    have a2 := a.2
    norm_num at a1 a2
    constructor <;> linarith [hv.1, hv.2]
  generalize |u * 1000| = z at *
  generalize rnd (u * 1000) = y at *
  rw [abs_le] at b ⊢
  have a1 := a.1
  have a2 := a.2
  have b1 := b.1
  have b2 := b.2
  norm_num at a1 a2 b1 b2
  constructor <;> linarith

theorem input_some (h : Adc.Rounding rnd) (v : Rat) (hv : Sensed v) : input rnd v = some (trunc (rnd (rnd (v + 1 / 2) * 1000))) ∧ Short (trunc (rnd (rnd (v + 1 / 2) * 1000))) := by
  have a := scaled_near h v hv
  have b := (trunc_near (rnd (rnd (v + 1 / 2) * 1000))).1
  unfold Sensed at hv
  unfold input Short
  simp only []
  generalize rnd (rnd (v + 1 / 2) * 1000) = y at *
  rw [abs_le] at a hv
  rw [abs_lt] at b
  have l : (-32768 : Rat) ≤ (trunc y : Rat) := by linarith [a.1, b.1, hv.1]
  have u : (trunc y : Rat) ≤ 32767 := by linarith [a.2, b.2, hv.2]
  have l' : -32768 ≤ trunc y := by exact_mod_cast l
  have u' : trunc y ≤ 32767 := by exact_mod_cast u
  exact ⟨if_pos ⟨l', u'⟩, l', u'⟩

theorem params_tame : Tame params ∧ Ordered params := by
  unfold Tame Ordered Controller.mag params
  decide

theorem wrap16_short (x : Int) : Short (Controller.wrap16 x) := by
  unfold Short Controller.wrap16
  omega

theorem lastDuty_append (d : Int) (l m : List Int) : lastDuty d (l ++ m) = lastDuty (lastDuty d l) m := by
  unfold lastDuty
  induction l generalizing d with
  | nil => rfl
  | cons x l ih =>
    cases l with
    | nil => cases m <;> simp [List.getLastD]
    | cons y l => simpa [List.getLastD] using ih x

/-- One interrupt. -/
theorem step_ok (h : Adc.Rounding rnd) (t : Int) (ht : Short t) (s : State) (hb : Bounded params s.controller) (ho : Short s.output) (v : Rat) (hv : Sensed v) (hc : s.outputs = s.inputs / 8) :
    ∃ s' o, step rnd t s v = some (s', o) ∧ Bounded params s'.controller ∧ Short s'.output ∧ s'.inputs = s.inputs + 1 ∧ s'.outputs = s'.inputs / 8 ∧ s'.output = lastDuty s.output o.toList ∧
      (∀ x ∈ o, 0 ≤ x ∧ x ≤ 255) ∧ (o.isSome → s'.inputs % 8 = 0 ∧ (s'.outputs = 1 ∨ s'.output ≠ s.output)) ∧ (s'.inputs = 8 → o.isSome) ∧ (s.outputs ≠ 0 → 0 ≤ s.output → s.output ≤ 255 → 0 ≤ s'.output ∧ s'.output ≤ 255) := by
  obtain ⟨hi, hs⟩ := input_some h v hv
  unfold step
  rw [hi]
  simp only []
  by_cases g : (s.inputs + 1) % 8 ≠ 0
  · rw [if_pos g]
    refine ⟨_, _, rfl, hb, ho, rfl, ?_, rfl, by simp, by simp, ?_, fun _ a b => ⟨a, b⟩⟩
    · simp only []
      omega
    · simp only []
      omega
  · rw [if_neg g]
    obtain ⟨c, x, hx, hb'⟩ := Controller.controller_tame_step params params_tame.1 s.controller hb t _ s.output ht hs ho
    have legal := (Controller.controller_output_legal params s.controller c t _ s.output x params_tame.2 (by decide) hx).1
    have l0 : 0 ≤ x := legal.1
    have l1 : x ≤ 255 := legal.2.1
    rw [hx]
    simp only []
    by_cases k : s.outputs = 0 ∨ s.output ≠ x
    · rw [if_pos k]
      refine ⟨_, _, rfl, hb', ⟨by simp only []; omega, by simp only []; omega⟩, rfl, ?_, rfl, by simp [l0, l1], ?_, by simp, fun _ _ _ => ⟨l0, l1⟩⟩
      · simp only []
        omega
      · intro _
        simp only []
        refine ⟨by omega, ?_⟩
        rcases k with k | k
        · left; omega
        · right; exact fun e => k e.symm
    · rw [if_neg k]
      refine ⟨_, _, rfl, hb', ho, rfl, ?_, rfl, by simp, by simp, ?_, fun _ a b => ⟨a, b⟩⟩
      · simp only []
        omega
      · simp only []
        intro e
        exact absurd (Or.inl (by omega)) k

theorem run_ok (h : Adc.Rounding rnd) (t : Int) (ht : Short t) (vs : List Rat) (hv : ∀ v ∈ vs, Sensed v) (s : State) (hb : Bounded params s.controller) (ho : Short s.output) (hc : s.outputs = s.inputs / 8) :
    ∃ s' sets, run rnd t s vs = some (s', sets) ∧ s'.inputs = s.inputs + vs.length ∧ s'.outputs = s'.inputs / 8 ∧ s'.output = lastDuty s.output sets ∧ (∀ x ∈ sets, 0 ≤ x ∧ x ≤ 255) ∧
      sets.length ≤ s'.outputs - s.outputs ∧ (s.inputs < 8 → 8 ≤ s'.inputs → sets ≠ []) := by
  induction vs generalizing s with
  | nil => exact ⟨s, [], rfl, rfl, hc, rfl, by simp, by simp, by omega⟩
  | cons v vs ih =>
    obtain ⟨s1, o, h1, b1, o1, i1, c1, d1, r1, m1, f1, _⟩ := step_ok h t ht s hb ho v (hv v (by simp)) hc
    obtain ⟨s2, sets, h2, i2, c2, d2, r2, n2, f2⟩ := ih (fun v hv' => hv v (by simp [hv'])) s1 b1 o1 c1
    refine ⟨s2, o.toList ++ sets, ?_, ?_, c2, ?_, ?_, ?_, ?_⟩
    · unfold run
      rw [h1]
      simp only []
      rw [h2]
    · rw [i2, i1, List.length_cons]
      omega
    · rw [lastDuty_append, ← d1, d2]
    · intro x hx
      rcases List.mem_append.1 hx with hx | hx
      · exact r1 x (by simpa using hx)
      · exact r2 x hx
    · rw [List.length_append]
      cases o with
      | none => simp only [Option.toList, List.length_nil]; omega
      | some x =>
        have := (m1 rfl).1
        simp only [Option.toList, List.length_cons, List.length_nil]
        omega
    · intro a b e
      obtain ⟨e1, e2⟩ := List.append_eq_nil_iff.1 e
      by_cases g : s1.inputs < 8
      · exact f2 g b e2
      · have := f1 (by omega)
        cases o with
        | none => simp at this
        | some x => simp at e1

/-- After the first, only a change is passed to the modulator. -/
theorem run_chain (t : Int) (vs : List Rat) (s s' : State) (sets : List Int) (hr : run rnd t s vs = some (s', sets)) : (s.outputs ≠ 0 → (s.output :: sets).IsChain (· ≠ ·)) ∧ sets.IsChain (· ≠ ·) := by
  induction vs generalizing s sets with
  | nil =>
    simp only [run, Option.some.injEq, Prod.mk.injEq] at hr
    rw [← hr.2]
    simp
  | cons v vs ih =>
    unfold run at hr
    cases h1 : step rnd t s v with
    | none => simp [h1] at hr
    | some r =>
      obtain ⟨s1, o⟩ := r
      rw [h1] at hr
      simp only [] at hr
      cases h2 : run rnd t s1 vs with
      | none => simp [h2] at hr
      | some r =>
        obtain ⟨s2, l⟩ := r
        rw [h2] at hr
        simp only [Option.some.injEq, Prod.mk.injEq] at hr
        have hl := ih s1 l (by rw [h2, hr.1])
        rw [← hr.2]
        unfold step at h1
        cases h3 : input rnd v with
        | none => simp [h3] at h1
        | some i =>
          rw [h3] at h1
          simp only [] at h1
          by_cases g : (s.inputs + 1) % 8 ≠ 0
          · rw [if_pos g] at h1
            simp only [Option.some.injEq, Prod.mk.injEq] at h1
            obtain ⟨e, e'⟩ := h1
            subst e e'
            exact hl
          · rw [if_neg g] at h1
            cases h4 : Controller.controller params s.controller t i s.output with
            | none => simp [h4] at h1
            | some r =>
              obtain ⟨c, x⟩ := r
              rw [h4] at h1
              simp only [] at h1
              by_cases k : s.outputs = 0 ∨ s.output ≠ x
              · rw [if_pos k] at h1
                simp only [Option.some.injEq, Prod.mk.injEq] at h1
                obtain ⟨e, e'⟩ := h1
                subst e e'
                have q := hl.1 (by simp)
                refine ⟨fun g => ?_, q⟩
                exact List.IsChain.cons_cons (k.resolve_left g) q
              · rw [if_neg k] at h1
                simp only [Option.some.injEq, Prod.mk.injEq] at h1
                obtain ⟨e, e'⟩ := h1
                subst e e'
                exact ⟨fun _ => hl.1 (by simp), hl.2⟩

/-- The state of a controller of which all inputs so far were the target. -/
def Calm (t : Int) (c : Controller.State) : Prop := c.initialized = true → c.integral = 0 ∧ c.previous = t

theorem calm_step (t : Int) (c : Controller.State) (hc : Calm t c) (o : Int) (h0 : 0 ≤ o) (h1 : o ≤ 255) : ∃ c', Controller.controller params c t t o = some (c', o) ∧ Calm t c' := by
  have p : (Controller.prepare c t).integral = 0 ∧ (Controller.prepare c t).previous = t := by
    unfold Controller.prepare
    cases hi : c.initialized with
    | false => simp
    | true => simpa using hc hi
  refine ⟨⟨t, 0, 0, 0, 0, 0, t, true⟩, ?_, fun _ => ⟨rfl, rfl⟩⟩
  have w : Controller.wrap16 o = o := by
    unfold Controller.wrap16
    omega
  have n : Controller.noFly params (Controller.clamp params o) = o := by
    unfold Controller.noFly Controller.clamp params
    simp only []
    rw [if_neg (by omega), if_neg (by omega), if_neg (by omega), if_neg (by omega)]
  have k : Controller.chk 0 = some 0 := by decide
  have ko : Controller.chk o = some o := Controller.chk_of (by omega) (by omega)
  have gp : Controller.applyGain 0 params.kp = some 0 := by decide
  have gi : Controller.applyGain 0 params.ki = some 0 := by decide
  have gd : Controller.applyGain 0 params.kd = some 0 := by decide
  have gc : Controller.applyGain 0 params.kc = some 0 := by decide
  have lw : Controller.limitWindup params.windup 0 = some 0 := by decide
  have fl : ∀ x, Controller.filtered params x t = some t := fun x => rfl
  unfold Controller.controller
  simp only [p.1, p.2, fl, bind, Option.bind_some, sub_self, k, gp, gi, gd, gc, lw, add_zero, ko, w, n]

theorem calm_run (t : Int) (v : Rat) (hi : input rnd v = some t) (n : Nat) (s : State) (hc : Calm t s.controller) (h0 : 0 ≤ s.output) (h1 : s.output ≤ 255) :
    ∃ s' sets, run rnd t s (List.replicate n v) = some (s', sets) ∧ s'.output = s.output ∧ ∀ x ∈ sets, x = s.output := by
  induction n generalizing s with
  | zero => exact ⟨s, [], rfl, rfl, by simp⟩
  | succ n ih =>
    rw [List.replicate_succ]
    unfold run step
    rw [hi]
    simp only []
    by_cases g : (s.inputs + 1) % 8 ≠ 0
    · rw [if_pos g]
      obtain ⟨s', sets, hr, ho, hx⟩ := ih { s with inputs := s.inputs + 1 } hc h0 h1
      simp only []
      rw [hr]
      exact ⟨s', sets, rfl, ho, hx⟩
    · rw [if_neg g]
      obtain ⟨c, hk, hc'⟩ := calm_step t s.controller hc s.output h0 h1
      rw [hk]
      simp only []
      obtain ⟨s', sets, hr, ho, hx⟩ := ih ⟨s.inputs + 1, s.outputs + 1, s.output, c⟩ hc' h0 h1
      by_cases k : s.outputs = 0 ∨ s.output ≠ s.output
      · rw [if_pos k]
        simp only []
        rw [hr]
        refine ⟨s', _, rfl, ho, fun x hm => ?_⟩
        rcases List.mem_append.1 hm with hm | hm
        · simpa using hm
        · exact hx x hm
      · rw [if_neg k]
        simp only []
        rw [hr]
        exact ⟨s', sets, rfl, ho, hx⟩

theorem eighths_cons {α : Type} (n : Nat) (x : α) (l : List α) : eighths n (x :: l) = if n % 8 = 0 then x :: eighths (n + 1) l else eighths (n + 1) l := by
  unfold eighths
  rw [List.zipIdx_cons, List.filter_cons]
  by_cases g : n % 8 = 0 <;> simp [g]

theorem run_feedback (t : Int) (vs : List Rat) (s s' : State) (sets : List Int) (hr : run rnd t s vs = some (s', sets)) :
    ∃ is, List.Forall₂ (fun v i => input rnd v = some i) (eighths (s.inputs + 1) vs) is ∧ Feedback params t s.controller s.output is s'.controller s'.output := by
  induction vs generalizing s sets with
  | nil =>
    simp only [run, Option.some.injEq, Prod.mk.injEq] at hr
    rw [← hr.1]
    exact ⟨[], .nil, .nil _ _⟩
  | cons v vs ih =>
    unfold run at hr
    cases h1 : step rnd t s v with
    | none => simp [h1] at hr
    | some r =>
      obtain ⟨s1, o⟩ := r
      rw [h1] at hr
      simp only [] at hr
      cases h2 : run rnd t s1 vs with
      | none => simp [h2] at hr
      | some r =>
        obtain ⟨s2, l⟩ := r
        rw [h2] at hr
        simp only [Option.some.injEq, Prod.mk.injEq] at hr
        obtain ⟨is, hf, hl⟩ := ih s1 l (by rw [h2, hr.1])
        rw [eighths_cons]
        unfold step at h1
        cases h3 : input rnd v with
        | none => simp [h3] at h1
        | some i =>
          rw [h3] at h1
          simp only [] at h1
          by_cases g : (s.inputs + 1) % 8 ≠ 0
          · rw [if_pos g] at h1
            simp only [Option.some.injEq, Prod.mk.injEq] at h1
            obtain ⟨e, e'⟩ := h1
            subst e e'
            rw [if_neg g]
            exact ⟨is, hf, hl⟩
          · rw [if_neg g] at h1
            rw [if_pos (by omega)]
            cases h4 : Controller.controller params s.controller t i s.output with
            | none => simp [h4] at h1
            | some r =>
              obtain ⟨c, x⟩ := r
              rw [h4] at h1
              simp only [] at h1
              by_cases k : s.outputs = 0 ∨ s.output ≠ x
              · rw [if_pos k] at h1
                simp only [Option.some.injEq, Prod.mk.injEq] at h1
                obtain ⟨e, e'⟩ := h1
                subst e e'
                exact ⟨i :: is, .cons h3 hf, .cons h4 hl⟩
              · rw [if_neg k] at h1
                simp only [Option.some.injEq, Prod.mk.injEq] at h1
                obtain ⟨e, e'⟩ := h1
                subst e e'
                have ex : s.output = x := by
                  by_contra g
                  exact k (.inr g)
                rw [← ex] at h4
                exact ⟨i :: is, .cons h3 hf, .cons h4 hl⟩

end Diminuto.Regulate
