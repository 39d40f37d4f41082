import Verif.PintoolLemmas
import Verif.NumberProps

/-!
# Lemmas: runs of the tool that manipulates pins
-/

namespace Diminuto.Pintool

open Diminuto.Number (Reads)

variable {σ : Type} (a : Api σ)

theorem concerns_orderly (p : Int) (cur : Stream) (x : List Act) (h : Concerns p cur x) : Orderly cur x := by
  induction x generalizing cur with
  | nil => trivial
  | cons e x ih =>
    cases e with
    | configured q c ok => exact ih _ h.2
    | opened q o g => exact ⟨h.2.1, ih _ h.2.2⟩
    | put g b ok => exact ⟨⟨_, h.1⟩, ih _ h.2⟩
    | got g v => exact ⟨⟨_, h.1⟩, ih _ h.2⟩
    | slept t => exact ih _ h
    | daemonized ok => exact ih _ h
    | waited g t _ => exact ⟨⟨_, h.1⟩, ih _ h.2⟩
    | closed g ok => exact ⟨h.1, ih _ h.2⟩
    | printed b => exact ih _ h
    | ran t ok => exact ih _ h

theorem orderly_append (cur : Stream) (x y : List Act) : Orderly cur (x ++ y) ↔ Orderly cur x ∧ Orderly (stream cur x) y := by
  induction x generalizing cur with
  | nil => simp [Orderly, stream]
  | cons e x ih => cases e <;> simp [Orderly, stream, ih, and_assoc]

/-- What an option leads to is told by its post-condition. -/
theorem step_leads {patience : Nat} {o : Opt} {s s' : State σ} (hi : Inv s) (h : Leads (step a patience o s) s') :
    ∃ acts, s'.log = s.log ++ acts ∧ Concerns s'.pin (stream none s.log) acts ∧ Open s' ∧ (step a patience o s = .next s' → Inv s') ∧
      ((∀ c, step a patience o s = .stop c s' → c = 0) → ∀ e ∈ acts, Passed e) := by
  by_cases ho : ∀ text, o ≠ .pin text
  · have hp := post_step a patience o s hi ho
    rcases h with h | ⟨c, h⟩ | h
    · rw [h] at hp ⊢
      obtain ⟨⟨acts, h1, h2, h3⟩, h4, h5⟩ := hp
      exact ⟨acts, h1, by rw [h5]; exact h2, h4.open, fun _ => h4, fun _ => h3 rfl⟩
    · rw [h] at hp ⊢
      obtain ⟨⟨acts, h1, h2, h3⟩, h4, h5⟩ := hp
      refine ⟨acts, h1, by rw [h5]; exact h2, h4.open, fun _ => h4, fun hc => h3 ?_⟩
      simp [hc c rfl]
    · rw [h] at hp ⊢
      obtain ⟨⟨acts, h1, h2, h3⟩, h4, h5⟩ := hp
      exact ⟨acts, h1, by rw [h5]; exact h2, h4.open, fun _ => h4, fun _ => h3 rfl⟩
  · simp only [Classical.not_forall, Classical.not_not] at ho
    obtain ⟨text, rfl⟩ := ho
    have hp := step_select a (text := text) (patience := patience) hi
    rcases h with h | ⟨c, h⟩ | h
    · rw [h] at hp ⊢
      obtain ⟨⟨acts, h1, h2, h3⟩, h4, _⟩ := hp
      exact ⟨acts, h1, h2, h4.open, fun _ => h4, fun _ => h3⟩
    · rw [h] at hp ⊢
      obtain ⟨h1, h2, h3, _⟩ := hp
      refine ⟨[], by simp [h1], trivial, h2, fun q => (by cases q), fun hc => ?_⟩
      have := hc c rfl; omega
    · rw [h] at hp; exact hp.elim

theorem reaches_inv {patience : Nat} {k : σ} {opts : List Opt} {s : State σ} (h : Reaches a patience k opts s) : Inv s := by
  induction h with
  | start => exact inv_start k
  | step _ hs ih =>
    obtain ⟨_, _, _, _, h5, _⟩ := step_leads a ih (Or.inl hs)
    exact h5 hs

/-! ## The pin -/

theorem selected_append (x : List Opt) (o : Opt) : selected (x ++ [o]) = (match o with | .pin text => some text | _ => selected x) := by
  induction x with
  | nil => cases o <;> rfl
  | cons e x ih =>
    cases o <;> cases e <;> simp only [List.cons_append, selected, ih] <;> rfl

theorem isPin_value {text : List Byte} {n : Nat} (h : IsPin text n) : (Number.unsigned text).1 = n ∧ (Number.unsigned text).2.1 = [] ∧ (BitVec.ofNat 32 n).toInt = n := by
  obtain ⟨h1, h2⟩ := h
  obtain ⟨q1, _, _, q4, _⟩ := Number.number_unsigned_reads h1
  refine ⟨q1 (by omega) rfl, q4, ?_⟩
  rw [BitVec.toInt_eq_toNat_cond, BitVec.toNat_ofNat, Nat.mod_eq_of_lt (by omega), if_pos (by omega)]

/-- What the variable for the pin is, given the options. -/
def PinIs (opts : List Opt) (s : State σ) : Prop :=
  match selected opts with
  | none => s.pin = -1 ∧ s.fp = none
  | some text => ∀ n, IsPin text n → s.pin = n

/-- Nothing was done but to wait. -/
def Idle (s s' : State σ) : Prop := ∃ x, s'.log = s.log ++ x ∧ ∀ e ∈ x, (∃ t, e = Act.slept t) ∨ ∃ ok, e = Act.daemonized ok

theorem idle_refl {s s' : State σ} (h : s'.log = s.log) : Idle s s' := ⟨[], by simp [h], fun e he => by simp at he⟩

/-- Without a pin nothing is done. -/
theorem step_idle {patience : Nat} {o : Opt} {s s' : State σ} (hf : s.fp = none) (hp : s.pin < 0) (ho : ∀ text, o ≠ .pin text) (h : Leads (step a patience o s) s') :
    Idle s s' ∧ s'.fp = none ∧ s'.pin = s.pin := by
  have hacq : ∀ (output : Bool) (t : State σ) (rest : Nat → State σ → Flow σ), t.fp = none → t.pin < 0 → acquire a output t rest = .stop 1 t := by
    intro output t rest h1 h2
    simp only [acquire, h1, if_pos h2]
  have hstop : ∀ {c : Nat} {t : State σ}, Leads (.stop c t) s' → t = s' := by
    intro c t h
    rcases h with h | ⟨_, h⟩ | h
    · cases h
    · injection h
    · cases h
  have hnext : ∀ {t : State σ}, Leads (.next t) s' → t = s' := by
    intro t h
    rcases h with h | ⟨_, h⟩ | h
    · injection h
    · cases h
    · cases h
  cases o with
  | first => rw [← hnext h]; exact ⟨idle_refl rfl, hf, rfl⟩
  | configure c =>
    simp only [step, configure, if_pos hp] at h
    rw [← hstop h]; exact ⟨idle_refl rfl, hf, rfl⟩
  | root text => rw [← hnext h]; exact ⟨idle_refl rfl, hf, rfl⟩
  | daemon =>
    simp only [step] at h
    cases hg : (a.daemon s.kernel).1 with
    | true => rw [hg, if_pos rfl] at h; rw [← hnext h]; exact ⟨⟨_, rfl, fun e he => Or.inr ⟨_, List.mem_singleton.mp he⟩⟩, hf, rfl⟩
    | false => rw [hg, if_neg (by simp)] at h; rw [← hstop h]; exact ⟨⟨_, rfl, fun e he => Or.inr ⟨_, List.mem_singleton.mp he⟩⟩, hf, rfl⟩
  | unique => rw [← hnext h]; exact ⟨idle_refl rfl, hf, rfl⟩
  | command text => rw [step] at h; rw [← hnext h]; exact ⟨idle_refl rfl, hf, rfl⟩
  | poll text =>
    simp only [step, number, hacq _ _ _ hf hp, ite_self] at h
    rw [← hstop h]; exact ⟨idle_refl rfl, hf, rfl⟩
  | write b =>
    simp only [step, hacq _ _ _ hf hp] at h
    rw [← hstop h]; exact ⟨idle_refl rfl, hf, rfl⟩
  | debug => rw [← hnext h]; exact ⟨idle_refl rfl, hf, rfl⟩
  | test nonzero =>
    simp only [step] at h
    by_cases hq : s.state = nonzero
    · rw [if_pos hq] at h; rw [← hnext h]; exact ⟨idle_refl rfl, hf, rfl⟩
    · rw [if_neg hq] at h; rw [← hstop h]; exact ⟨idle_refl rfl, hf, rfl⟩
  | watch t =>
    cases t with
    | none =>
      simp only [step, hacq _ _ _ hf hp] at h
      rw [← hstop h]; exact ⟨idle_refl rfl, hf, rfl⟩
    | some text =>
      simp only [step] at h
      by_cases hq : (Number.signed text).2.1 ≠ []
      · rw [if_pos hq] at h; rw [← hstop h]; exact ⟨idle_refl rfl, hf, rfl⟩
      · rw [if_neg hq] at h
        cases ht : timeout (Number.signed text).1 with
        | none =>
          rw [ht] at h
          rcases h with h | ⟨_, h⟩ | h <;> cases h
        | some v =>
          rw [ht] at h
          simp only [] at h
          rw [hacq _ { s with sticks := v } _ hf hp] at h
          rw [← hstop h]; exact ⟨idle_refl rfl, hf, rfl⟩
  | pin text => exact absurd rfl (ho text)
  | read =>
    simp only [step, hacq _ _ _ hf hp] at h
    rw [← hstop h]; exact ⟨idle_refl rfl, hf, rfl⟩
  | delay text =>
    simp only [step, number] at h
    by_cases hq : (Number.unsigned text).2.1 ≠ []
    · rw [if_pos hq] at h; rw [← hstop h]; exact ⟨idle_refl rfl, hf, rfl⟩
    · rw [if_neg hq] at h; rw [← hnext h]; exact ⟨⟨_, rfl, fun e he => Or.inl ⟨_, List.mem_singleton.mp he⟩⟩, hf, rfl⟩
  | writeText text =>
    simp only [step, number, hacq _ _ _ hf hp, ite_self] at h
    rw [← hstop h]; exact ⟨idle_refl rfl, hf, rfl⟩
  | menu => rw [← hnext h]; exact ⟨idle_refl rfl, hf, rfl⟩
  | other => rw [← hstop h]; exact ⟨idle_refl rfl, hf, rfl⟩

/-- The pin after an option. -/
theorem step_pin {patience : Nat} {o : Opt} {opts : List Opt} {s s' : State σ} (hi : Inv s) (hp : PinIs opts s) (h : Leads (step a patience o s) s') :
    PinIs (opts ++ [o]) s' ∧ (selected (opts ++ [o]) = none → Idle s s') := by
  rw [PinIs, selected_append]
  by_cases ho : ∀ text, o ≠ .pin text
  · have he : ∀ o : Opt, (∀ text, o ≠ .pin text) → (match o with | .pin text => some text | _ => selected opts) = selected opts := by
      intro o ho
      cases o with
      | pin text => exact absurd rfl (ho text)
      | _ => rfl
    rw [he o ho]
    have hq := post_step a patience o s hi ho
    have hpin : s'.pin = s.pin := by
      rcases h with h | ⟨c, h⟩ | h <;> rw [h] at hq <;> exact hq.2.2
    cases hs : selected opts with
    | none =>
      rw [PinIs, hs] at hp
      obtain ⟨h1, h2⟩ := hp
      obtain ⟨g1, g2, g3⟩ := step_idle a h2 (by omega) ho h
      exact ⟨⟨by rw [g3, h1], g2⟩, fun _ => g1⟩
    | some text =>
      rw [PinIs, hs] at hp
      refine ⟨fun n hn => by rw [hpin]; exact hp n hn, fun q => by cases q⟩
  · simp only [Classical.not_forall, Classical.not_not] at ho
    obtain ⟨text, rfl⟩ := ho
    refine ⟨fun n hn => ?_, fun q => by cases q⟩
    obtain ⟨v1, v2, v3⟩ := isPin_value hn
    have hq := step_select a (text := text) (patience := patience) hi
    rcases h with h | ⟨c, h⟩ | h
    · rw [h] at hq
      obtain ⟨_, _, _, _, _, h6⟩ := hq
      rw [h6, v1, v3]
    · rw [h] at hq
      obtain ⟨_, _, _, h4⟩ := hq
      rcases h4 with h4 | h4
      · exact absurd v2 h4
      · rw [v1, v3] at h4; omega
    · rw [h] at hq; exact hq.elim

theorem reaches_pin {patience : Nat} {k : σ} {opts : List Opt} {s : State σ} (h : Reaches a patience k opts s) : PinIs opts s := by
  induction h with
  | start => exact ⟨rfl, rfl⟩
  | step hr hs ih => exact (step_pin a (reaches_inv a hr) ih (Or.inl hs)).1

/-! ## The whole run -/

/-- The loop ends in order. -/
theorem loop_orderly (patience : Nat) : ∀ (opts : List Opt) (s : State σ), Inv s → Orderly none s.log →
    (∀ code s', loop a patience opts s = .exit code s' → Orderly none s'.log ∧ stream none s'.log = none ∧ ((∀ e ∈ s.log, Passed e) → code = 0 → ∀ e ∈ s'.log, Passed e)) ∧
    (∀ s', loop a patience opts s = .busy s' → Orderly none s'.log ∧ ((∀ e ∈ s.log, Passed e) → ∀ e ∈ s'.log, Passed e)) := by
  have hfin : ∀ (c : Nat) (s : State σ), Open s → Orderly none s.log → ∀ code s', finish a c s = .exit code s' →
      Orderly none s'.log ∧ stream none s'.log = none ∧ code = c ∧ ∀ e ∈ s'.log, e ∈ s.log ∨ Passed e := by
    intro c s ho hl code s' h
    rw [finish] at h
    cases hf : s.fp with
    | none =>
      rw [hf] at h
      injection h with h0 h; subst h; subst h0
      rw [Open, hf] at ho
      exact ⟨hl, ho, rfl, fun e he => Or.inl he⟩
    | some g =>
      rw [hf] at h
      simp only [] at h
      injection h with h0 h; subst h; subst h0
      rw [Open, hf] at ho
      obtain ⟨q, o, ho⟩ := ho
      refine ⟨?_, by simp only []; rw [stream_append]; rfl, rfl, fun e he => ?_⟩
      · simp only []
        rw [orderly_append]
        exact ⟨hl, ⟨⟨q, o, ho⟩, trivial⟩⟩
      · rcases List.mem_append.mp he with he | he
        · exact Or.inl he
        · rw [List.mem_singleton.mp he]; exact Or.inr (Or.inl trivial)
  intro opts
  induction opts with
  | nil =>
    intro s hi hl
    refine ⟨fun code s' h => ?_, fun s' h => ?_⟩
    · obtain ⟨h1, h2, _, h4⟩ := hfin 0 s hi.open hl code s' h
      exact ⟨h1, h2, fun hp _ e he => (h4 e he).elim (hp e) id⟩
    · rw [loop, finish] at h
      cases hf : s.fp with
      | none => rw [hf] at h; cases h
      | some g => rw [hf] at h; cases h
  | cons o r ih =>
    intro s hi hl
    rw [loop]
    have hl2 : ∀ s', Leads (step a patience o s) s' → Orderly none s'.log := by
      intro s' h
      obtain ⟨acts, h1, h2, _⟩ := step_leads a hi h
      rw [h1, orderly_append]
      exact ⟨hl, concerns_orderly _ _ _ h2⟩
    have hpass : ∀ s', Leads (step a patience o s) s' → (∀ c, step a patience o s = .stop c s' → c = 0) → (∀ e ∈ s.log, Passed e) → ∀ e ∈ s'.log, Passed e := by
      intro s' h hc hp e he
      obtain ⟨acts, h1, _, _, _, h6⟩ := step_leads a hi h
      rw [h1] at he
      rcases List.mem_append.mp he with he | he
      · exact hp e he
      · exact h6 hc e he
    cases hst : step a patience o s with
    | undefined => exact ⟨fun code s' h => (by cases h), fun s' h => (by cases h)⟩
    | busy t =>
      have hld : Leads (step a patience o s) t := Or.inr (Or.inr hst)
      refine ⟨fun code s' h => (by cases h), fun s' h => ?_⟩
      injection h with h; subst h
      exact ⟨hl2 _ hld, hpass _ hld fun c hc => (by rw [hst] at hc; cases hc)⟩
    | stop c t =>
      have hld : Leads (step a patience o s) t := Or.inr (Or.inl ⟨c, hst⟩)
      refine ⟨fun code s' h => ?_, fun s' h => ?_⟩
      · obtain ⟨_, _, _, h4, _⟩ := step_leads a hi hld
        obtain ⟨g1, g2, g3, g4⟩ := hfin c t h4 (hl2 _ hld) code s' h
        refine ⟨g1, g2, fun hp hz e he => ?_⟩
        rcases g4 e he with q | q
        · refine hpass _ hld (fun c' hc => ?_) hp e q
          rw [hst] at hc; injection hc with hc; omega
        · exact q
      · simp only [] at h
        rw [finish] at h
        cases hf : t.fp with
        | none => rw [hf] at h; cases h
        | some g => rw [hf] at h; cases h
    | next t =>
      have hld : Leads (step a patience o s) t := Or.inl hst
      obtain ⟨_, _, _, _, h5, _⟩ := step_leads a hi hld
      have := ih t (h5 hst) (hl2 _ hld)
      refine ⟨fun code s' h => ?_, fun s' h => ?_⟩
      · obtain ⟨g1, g2, g3⟩ := this.1 code s' h
        exact ⟨g1, g2, fun hp hz => g3 (hpass _ hld (fun c hc => (by rw [hst] at hc; cases hc)) hp) hz⟩
      · obtain ⟨g1, g2⟩ := this.2 s' h
        exact ⟨g1, fun hp => g2 (hpass _ hld (fun c hc => (by rw [hst] at hc; cases hc)) hp)⟩

/-! ## What is not defined -/

/-- A flow that is defined. -/
def Defined : Flow σ → Prop
  | .undefined => False
  | _ => True

theorem defined_acquire (output : Bool) (s : State σ) (rest : Nat → State σ → Flow σ) (hr : ∀ h s', Defined (rest h s')) : Defined (acquire a output s rest) := by
  unfold acquire
  cases s.fp with
  | some h => exact hr h s
  | none =>
    simp only []
    by_cases hp : s.pin < 0
    · rw [if_pos hp]; trivial
    · rw [if_neg hp]
      rcases a.open_ s.pin output s.kernel with ⟨_ | h, k⟩
      · trivial
      · exact hr _ _

theorem defined_sample (h : Nat) (s : State σ) (rest : Bool → State σ → Flow σ) (hr : ∀ b s', Defined (rest b s')) : Defined (sample a h s rest) := by
  unfold sample
  rcases a.get h s.kernel with ⟨v, k⟩
  simp only []
  by_cases hv : v < 0
  · rw [if_pos hv]; trivial
  · rw [if_neg hv]; exact hr _ _

theorem defined_store (h : Nat) (b : Bool) (s : State σ) : Defined (store a h b s) := by
  unfold store
  rcases a.put h b s.kernel with ⟨ok, k⟩
  cases ok <;> trivial

theorem defined_polling (h : Nat) (t : BitVec 64) : ∀ (n : Nat) (cue : Cue.State) (s : State σ), Defined (polling a h t n cue s) := by
  intro n
  induction n with
  | zero => intro cue s; trivial
  | succ n ih =>
    intro cue s
    unfold polling
    refine defined_sample a h _ _ fun b s' => ?_
    simp only []
    by_cases hq : (Cue.debounce cue (if b then 1 else 0)).r ≠ s.state
    · rw [if_pos hq]; exact ih _ _
    · rw [if_neg hq]; exact ih _ _

theorem defined_notice (b : Bool) (prior : Option Bool) (s : State σ) (rest : State σ → Flow σ) (hr : ∀ s', Defined (rest s')) : Defined (notice a b prior s rest) := by
  unfold notice
  by_cases hq : s.unique = true ∧ prior = some b
  · rw [if_pos hq]; exact hr _
  · rw [if_neg hq]
    cases s.command with
    | none => exact hr _
    | some text =>
      simp only []
      cases (a.system (commandLine text s.pin b prior) s.kernel).1 with
      | true => rw [if_pos rfl]; exact hr _
      | false => rw [if_neg (by simp)]; trivial

theorem defined_watching (h : Nat) : ∀ (n : Nat) (prior : Option Bool) (s : State σ), Defined (watching a h n prior s) := by
  intro n
  induction n with
  | zero => intro prior s; trivial
  | succ n ih =>
    intro prior s
    unfold watching
    rcases a.wait h s.sticks s.kernel with ⟨_ | r, k⟩
    · trivial
    · exact defined_sample a h _ _ fun b s' => defined_notice a _ _ _ _ fun s'' => ih _ _

theorem defined_watch (patience h : Nat) (s : State σ) : Defined (watch a patience h s) := by
  unfold watch
  by_cases hf : s.first = true
  · rw [if_pos hf]; exact defined_sample a h s _ fun b s' => defined_watching a h _ _ _
  · rw [if_neg hf]; exact defined_watching a h _ _ _

theorem defined_number (text : List Byte) (s : State σ) (rest : Nat → Flow σ) (hr : ∀ u, Defined (rest u)) : Defined (number text s rest) := by
  unfold number
  by_cases h : (Number.unsigned text).2.1 ≠ []
  · rw [if_pos h]; trivial
  · rw [if_neg h]; exact hr _

theorem defined_step (patience : Nat) (o : Opt) (s : State σ) (hc : ∀ h k, (a.close h k).1 = true)
    (hw : ∀ text, o = .watch (some text) → (Number.signed text).2.1 = [] → (Number.signed text).1 ≤ 9223372036) : Defined (step a patience o s) := by
  cases o with
  | configure c =>
    simp only [step, configure]
    by_cases hp : s.pin < 0
    · rw [if_pos hp]; trivial
    · rw [if_neg hp]
      cases (a.configure c s.pin s.kernel).1 with
      | true => trivial
      | false =>
        rw [if_neg (by simp)]
        cases c with
        | edge e =>
          simp only []
          by_cases he : e = 3
          · rw [if_pos he]; trivial
          · rw [if_neg he]; trivial
        | _ => trivial
  | daemon =>
    simp only [step]
    cases (a.daemon s.kernel).1 with
    | true => rw [if_pos rfl]; trivial
    | false => rw [if_neg (by simp)]; trivial
  | poll text => rw [step]; exact defined_number _ _ _ fun u => defined_acquire a _ _ _ fun h s' => defined_sample a h _ _ fun b s'' => defined_polling a h _ _ _ _
  | write b => exact defined_acquire a _ _ _ fun h s' => defined_store a _ _ _
  | test nonzero =>
    simp only [step]
    by_cases h : s.state = nonzero
    · rw [if_pos h]; trivial
    · rw [if_neg h]; trivial
  | watch t =>
    cases t with
    | none => exact defined_acquire a _ _ _ fun h s' => defined_watch a _ _ _
    | some text =>
      simp only [step]
      by_cases h : (Number.signed text).2.1 ≠ []
      · rw [if_pos h]; trivial
      · rw [if_neg h]
        have hb := hw text rfl (by simpa using h)
        have : ∃ v, timeout (Number.signed text).1 = some v := by
          unfold timeout
          by_cases h0 : (Number.signed text).1 > 0
          · rw [if_pos h0, if_pos (by omega)]; exact ⟨_, rfl⟩
          · rw [if_neg h0]; exact ⟨_, rfl⟩
        obtain ⟨v, hv⟩ := this
        rw [hv]
        exact defined_acquire a _ _ _ fun h s' => defined_watch a _ _ _
  | pin text =>
    rw [step]
    refine defined_number _ _ _ fun u => ?_
    unfold select
    simp only []
    by_cases h2 : (BitVec.ofNat 32 u).toInt < 0
    · rw [if_pos h2]; trivial
    · rw [if_neg h2]
      cases s.fp with
      | none => trivial
      | some g =>
        simp only []
        rw [if_pos (hc g s.kernel)]; trivial
  | read =>
    rw [step]
    refine defined_acquire a _ _ _ fun h s' => defined_sample a h _ _ fun b s'' => ?_
    trivial
  | delay text => rw [step]; exact defined_number _ _ _ fun u => trivial
  | writeText text => rw [step]; exact defined_number _ _ _ fun u => defined_acquire a _ _ _ fun h s' => defined_store a _ _ _
  | _ => trivial

end Diminuto.Pintool
