import Verif.RegulateLemmas

/-! # Properties of the tool that regulates a voltage -/

namespace Diminuto.Regulate

open Controller (Short)
open Luxtool (Operand)

variable {rnd : Rat → Rat}

/-- Whatever the converter returns and however it is configured, the voltage is within the bounds that the other theorems assume. -/
theorem regulate_sensed (h : Adc.Rounding rnd) (config raw : BitVec 16) (buffer : Rat) : Sensed (Adc.rawtovolts rnd config raw buffer).2 := by
  have a := (Adc.adc_close h config raw buffer).2
  have f := Adc.fullScale_bounds (Adc.gain config)
  have l0 : -32768 ≤ raw.toInt := BitVec.le_toInt raw
  have l1 : raw.toInt < 32768 := BitVec.toInt_lt (x := raw)
  have k0 : (-32768 : Rat) ≤ raw.toInt := by exact_mod_cast l0
  have k1 : (raw.toInt : Rat) ≤ 32768 := by exact_mod_cast l1.le
  unfold Sensed
  generalize (Adc.rawtovolts rnd config raw buffer).2 = u at *
  generalize Adc.fullScale (Adc.gain config) = F at *
  generalize (raw.toInt : Rat) = m at *
  have F0 : 0 < F := by linarith [f.1]
  have x0 : |m * F / 32767| ≤ 32768 * F / 32767 := by
    rw [abs_le]
    constructor <;> nlinarith
  have t := abs_sub_abs_le_abs_sub u (m * F / 32767)
  generalize |m * F / 32767| = p at *
  norm_num at a x0 ⊢
  linarith [f.2]

/-- Whatever target and duty cycle of 16 bits it is started with and whatever voltages are sensed, no conversion and no computation overflows; every duty cycle that is passed to the modulator is one, from 0 to 255, so that the assertion on it holds;
the controller is called for every eighth voltage only; the first time, its result is passed to the modulator in any case, and thereafter whenever it has changed and only then; and the duty cycle that the controller is given is the one that was last passed to the modulator. -/
theorem regulate_loop (h : Adc.Rounding rnd) (t d : Int) (ht : Short t) (hd : Short d) (vs : List Rat) (hv : ∀ v ∈ vs, Sensed v) :
    ∃ s sets, run rnd t (.init d) vs = some (s, sets) ∧ (∀ x ∈ sets, 0 ≤ x ∧ x ≤ 255) ∧ s.outputs = vs.length / 8 ∧ sets.length ≤ vs.length / 8 ∧ (8 ≤ vs.length → sets ≠ []) ∧ sets.IsChain (· ≠ ·) ∧ s.output = lastDuty d sets := by
  obtain ⟨s, sets, hr, hi, hc, ho, hx, hn, hf⟩ := run_ok h t ht vs hv (.init d) (by intro e; simp [State.init, Controller.initState] at e) hd (by simp [State.init])
  have e : s.inputs = vs.length := by simpa [State.init] using hi
  rw [e] at hc hf
  refine ⟨s, sets, hr, hx, hc, ?_, fun g => hf (by simp [State.init]) g, (run_chain t vs _ s sets hr).2, ho⟩
  rw [← hc]
  simpa [State.init] using hn

example : Short 2475 ∧ Short 127 ∧ Sensed (33 / 10) := by
  unfold Short Sensed
  refine ⟨by decide, by decide, ?_⟩
  rw [abs_le]
  norm_num

/-- The duty cycle at the end is that of the controller with feedback, started anew, for the inputs of every eighth voltage. -/
theorem regulate_feedback (t d : Int) (vs : List Rat) (s : State) (sets : List Int) (hr : run rnd t (.init d) vs = some (s, sets)) :
    ∃ is, List.Forall₂ (fun v i => input rnd v = some i) (eighths 1 vs) is ∧ Feedback params t Controller.initState d is s.controller s.output :=
  run_feedback t vs (.init d) s sets hr

example : eighths 1 (List.range' 1 17) = [8, 16] := by decide

/-- What the input of the controller is: the voltage in millivolts, and 500 more. -/
theorem regulate_input_partial (h : Adc.Rounding rnd) (v : Rat) (hv : Sensed v) : ∃ i, input rnd v = some i ∧ |(i : Rat) - (1000 * v + 500)| ≤ 1 + 1 / 1000000 := by
  refine ⟨_, (input_some h v hv).1, ?_⟩
  have a := scaled_near h v hv
  have b := (trunc_near (rnd (rnd (v + 1 / 2) * 1000))).1
  generalize rnd (rnd (v + 1 / 2) * 1000) = y at *
  rw [abs_le] at a ⊢
  rw [abs_lt] at b
  constructor <;> linarith [a.1, a.2, b.1, b.2]

/-- It is truncated towards zero, also if it is negative. -/
theorem regulate_input_toward (h : Adc.Rounding rnd) (v : Rat) (hv : Sensed v) : ∃ (i : Int) (y : Rat), input rnd v = some i ∧ |y - (1000 * v + 500)| ≤ 1 / 1000000 ∧ |(i : Rat)| ≤ |y| ∧ |(i : Rat) - y| < 1 := by
  refine ⟨_, rnd (rnd (v + 1 / 2) * 1000), (input_some h v hv).1, scaled_near h v hv, ?_, (trunc_near _).1⟩
  generalize rnd (rnd (v + 1 / 2) * 1000) = y
  unfold trunc
  by_cases g : 0 ≤ y
  · have a : (0 : Rat) ≤ (⌊y⌋ : Int) := by exact_mod_cast Int.floor_nonneg.2 g
    rw [if_pos g, abs_of_nonneg g, abs_of_nonneg a]
    exact Int.floor_le y
  · have a : ((⌈y⌉ : Int) : Rat) ≤ 0 := by exact_mod_cast Int.ceil_le.2 (by push_cast; linarith)
    rw [if_neg g, abs_of_nonpos (show y ≤ 0 by linarith), abs_of_nonpos a]
    linarith [Int.le_ceil y]

example : Sensed (-3) := by
  unfold Sensed
  rw [abs_le]
  norm_num

/-- The claim would be that the input is the voltage rounded to millivolts: but it is never within 498 millivolts of it. -/
theorem regulate_input_counterexample (h : Adc.Rounding rnd) (v : Rat) (hv : Sensed v) : ∃ i, input rnd v = some i ∧ (498 : Rat) < i - 1000 * v := by
  obtain ⟨i, hi, hn⟩ := regulate_input_partial h v hv
  rw [abs_le] at hn
  exact ⟨i, hi, by linarith [hn.1]⟩

/-- Hence a voltage that is 499 millivolts below the default target is, however long it is sensed, left as it is. -/
theorem regulate_target_counterexample (h : Adc.Rounding rnd) (buffer : Rat) (n : Nat) : ∃ v s sets, v = (Adc.rawtovolts rnd 0x401c#16 10536#16 buffer).2 ∧ 1000 * v < 2475 - 499 ∧ arguments [] = .start false 2475 127 ∧
    run rnd 2475 (.init 127) (List.replicate n v) = some (s, sets) ∧ s.output = 127 ∧ ∀ x ∈ sets, x = 127 := by
  have a := (Adc.adc_close h 0x401c#16 10536#16 buffer).2
  have hs := regulate_sensed h 0x401c#16 10536#16 buffer
  have e : (10536#16 : BitVec 16).toInt = 10536 := by decide
  have f : Adc.fullScale (Adc.gain 0x401c#16) = 6144 / 1000 := rfl
  rw [e, f] at a
  generalize (Adc.rawtovolts rnd 0x401c#16 10536#16 buffer).2 = v at *
  push_cast at a
  rw [abs_of_nonneg (show (0 : Rat) ≤ 10536 * (6144 / 1000) / 32767 by norm_num), abs_le] at a
  have a1 := a.1
  have a2 := a.2
  norm_num at a1 a2
  have i : input rnd v = some 2475 := by
    rw [(input_some h v hs).1]
    have b := scaled_near h v hs
    generalize rnd (rnd (v + 1 / 2) * 1000) = y at *
    rw [abs_le] at b
    congr 1
    unfold trunc
    rw [if_pos (by linarith [b.1]), Int.floor_eq_iff]
    push_cast
    constructor <;> linarith [b.1, b.2]
  obtain ⟨s, sets, hr, ho, hx⟩ := calm_run 2475 v i n (.init 127) (by intro k; simp [State.init, Controller.initState] at k) (by decide) (by decide)
  exact ⟨v, s, sets, rfl, by linarith, by decide, hr, ho, hx⟩

/-- Operands that have values within the limits are the target and the duty cycle, with or without the option for debugging; without them the defaults are used. -/
theorem regulate_arguments_partial (t u : List Byte) (v x : Nat) (ht : Operand t v) (hu : Operand u x) (hv : v ≤ 6144) (hx : x ≤ 255) (more : List (List Byte)) :
    arguments [] = .start false 2475 127 ∧ arguments [[45#8, 100#8]] = .start true 2475 127 ∧
    arguments [[45#8, 100#8], t] = .start true v 127 ∧ arguments ([45#8, 100#8] :: t :: u :: more) = .start true v x ∧
    (t ≠ [45#8, 100#8] → t ≠ [45#8, 63#8] → arguments [t] = .start false v 127 ∧ arguments (t :: u :: more) = .start false v x) := by
  obtain ⟨t1, t2⟩ := (Luxtool.strtoull_operand t v).2 ht
  obtain ⟨u1, u2⟩ := (Luxtool.strtoull_operand u x).2 hu
  have wv : Controller.wrap16 (v : Int) = v := by
    unfold Controller.wrap16
    omega
  have wx : Controller.wrap16 (x : Int) = x := by
    unfold Controller.wrap16
    omega
  have nt : number t 6144 = some (v : Int) := by
    unfold number
    rw [t1, t2, wv, if_neg (by simp), if_neg (by omega)]
  have nu : number u 255 = some (x : Int) := by
    unfold number
    rw [u1, u2, wx, if_neg (by simp), if_neg (by omega)]
  have k1 : ∀ b, target b [t] = .start b v 127 := fun b => by simp [target, nt, duty]
  have k2 : ∀ b, target b (t :: u :: more) = .start b v x := fun b => by simp [target, nt, duty, nu]
  refine ⟨by decide, by decide, k1 true, k2 true, fun g1 g2 => ⟨?_, ?_⟩⟩
  · rw [← k1 false]
    unfold arguments
    split
    · next e => simp at e; exact absurd e.1 g2
    · next e => simp at e; exact absurd e.1 g1
    · rfl
  · rw [← k2 false]
    unfold arguments
    split
    · next e => simp at e; exact absurd e.1 g2
    · next e => simp at e; exact absurd e.1 g1
    · rfl

example : Operand [49#8, 50#8] 12 := (Luxtool.strtoull_operand _ _).1 (by decide)

/-- The usage is printed if it is asked for by the first argument, and only then. -/
theorem regulate_usage (args : List (List Byte)) : arguments args = .usage ↔ args.head? = some [45#8, 63#8] := by
  have k0 : ∀ b t l, duty b t l ≠ .usage := by
    intro b t l
    unfold duty
    split
    · simp
    · split <;> simp
  have k1 : ∀ b l, target b l ≠ .usage := by
    intro b l
    unfold target
    split
    · exact k0 _ _ _
    · split
      · simp
      · exact k0 _ _ _
  unfold arguments
  split
  · simp
  · simp [k1]
  · next g _ =>
    constructor
    · intro e
      exact absurd e (k1 _ _)
    · intro e
      cases args with
      | nil => simp at e
      | cons x l =>
        simp at e
        subst e
        exact absurd rfl (g l)

/-- A number of 15 bits that is beyond the limit is complained about. -/
theorem regulate_limit (t : List Byte) (v : Nat) (ht : Operand t v) (hv : v < 32768) (b : Bool) (more : List (List Byte)) : (6144 < v → target b (t :: more) = .invalid t) ∧ (255 < v → ∀ m, duty b m (t :: more) = .invalid t) := by
  obtain ⟨t1, t2⟩ := (Luxtool.strtoull_operand t v).2 ht
  have wv : Controller.wrap16 (v : Int) = v := by
    unfold Controller.wrap16
    omega
  have key : ∀ l : Int, l < v → number t l = none := by
    intro l g
    unfold number
    rw [t1, t2, wv, if_neg (by simp), if_pos (by omega)]
  exact ⟨fun g => by simp [target, key 6144 (by omega)], fun g m => by simp [duty, key 255 (by omega)]⟩

/-- An operand that is no number is complained about. -/
theorem regulate_invalid (t u : List Byte) (more : List (List Byte)) (b : Bool) : ((∀ v, ¬ Operand t v) → target b (t :: more) = .invalid t) ∧ ((∀ v, ¬ Operand u v) → ∀ m, duty b m (u :: more) = .invalid u) := by
  have key : ∀ y l, (∀ v, ¬ Operand y v) → number y l = none := by
    intro y l g
    unfold number
    rw [if_pos]
    intro e
    exact g _ ((Luxtool.strtoull_operand y _).1 ⟨e, rfl⟩)
  exact ⟨fun g => by simp [target, key t _ g], fun g m => by simp [duty, key u _ g]⟩

example : ∀ v, ¬ Operand [120#8] v := by
  intro v g
  have := ((Luxtool.strtoull_operand _ v).2 g).1
  revert this
  decide

/-- Negative numbers and numbers that are far too great are accepted, although by the comment neither is allowed: `-1 -1` starts with the target -1 and the duty cycle -1, and `65537` is the target 1. -/
theorem regulate_arguments_counterexample : arguments [[45#8, 49#8], [45#8, 49#8]] = .start false (-1) (-1) ∧ arguments [[54#8, 53#8, 53#8, 51#8, 55#8]] = .start false 1 127 := by
  decide

end Diminuto.Regulate
