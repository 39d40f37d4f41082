import Verif.PintoolLemmas3

/-!
# Lemmas: the values of pins
-/

namespace Diminuto.Pintool

open Diminuto.Number (Reads)

/-- The state of the program and of the machine agree with what the user knows. -/
structure Agrees (sel : Bool) (mode : Option Bool) (s : State Gpio) (x : Account) : Prop where
  pin : sel = true → 0 ≤ s.pin ∧ s.pin = x.pin
  value : s.kernel.value = x.value
  last : s.state = x.last
  out : printed s.log = x.out
  stream : match mode with | none => s.fp = none | some o => ∃ h, s.fp = some h ∧ s.kernel.streams.find? (·.1 = h) = some (h, s.pin, o)

theorem number_reads {text : List Byte} {n : Nat} (h : Reads text false n []) (hn : n < 2 ^ 64) {σ : Type} (s : State σ) (rest : Nat → Flow σ) : number text s rest = rest n := by
  obtain ⟨q1, _, _, q4, _⟩ := Number.number_unsigned_reads h
  rw [number, q1 hn rfl, q4]; simp

/-- The stream, once it is there. -/
theorem acquire_gpio {sel : Bool} {mode : Option Bool} {s : State Gpio} {x : Account} (h : Agrees sel mode s x) (hsel : sel = true) (o : Bool) (hm : mode ≠ some (!o)) (rest : Nat → State Gpio → Flow Gpio) :
    ∃ g s', acquire gpio o s rest = rest g s' ∧ Agrees sel (some o) s' x ∧ s'.fp = some g ∧ s'.kernel.streams.find? (·.1 = g) = some (g, s'.pin, o) := by
  cases mode with
  | none =>
    have hf : s.fp = none := h.stream
    have hp := h.pin hsel
    refine ⟨s.kernel.next, { s with kernel := { s.kernel with streams := (s.kernel.next, s.pin, o) :: s.kernel.streams, next := s.kernel.next + 1 }, fp := some s.kernel.next, log := s.log ++ [.opened s.pin o s.kernel.next] }, ?_, ?_, rfl, by simp⟩
    · simp only [acquire, hf, gpio]
      rw [if_neg (by omega)]
    · refine ⟨h.pin, h.value, h.last, ?_, ⟨_, rfl, by simp⟩⟩
      simp only []
      rw [printed_append, h.out]; simp [printed]
  | some m =>
    obtain ⟨g, hf, hg⟩ := h.stream
    have hmo : m = o := by
      cases m <;> cases o <;> simp at hm ⊢
    subst hmo
    exact ⟨g, s, by simp only [acquire, hf], h, hf, hg⟩

/-- The end of a run. -/
theorem finish_gpio {sel : Bool} {mode : Option Bool} {s : State Gpio} {x : Account} (h : Agrees sel mode s x) (c : Nat) :
    ∃ s', finish gpio c s = .exit c s' ∧ s'.kernel.value = x.value ∧ printed s'.log = x.out := by
  rw [finish]
  cases hf : s.fp with
  | none => exact ⟨s, rfl, h.value, h.out⟩
  | some g =>
    refine ⟨_, rfl, h.value, ?_⟩
    simp only []
    rw [printed_append, h.out]; simp [printed]

/-- What a command makes of what the user knows, and of what is selected and open; nothing if it ends the run. -/
theorem step_gpio (patience : Nat) {sel : Bool} {mode : Option Bool} {s : State Gpio} {x : Account} {o : Opt} {c : Command} {r : List Command} (h : Agrees sel mode s x) (hs : Spelled o c) (hst : Steady sel mode (c :: r)) :
    (∃ s', step gpio patience o s = .stop 0 s' ∧ Agrees sel mode s' x ∧ meaning (c :: r) x = x) ∨
    (∃ s' sel' mode' x', step gpio patience o s = .next s' ∧ Agrees sel' mode' s' x' ∧ Steady sel' mode' r ∧ meaning (c :: r) x = meaning r x') := by
  have hget : ∀ (g : Nat) (s' : State Gpio), s'.kernel.streams.find? (·.1 = g) = some (g, s'.pin, false) → ∀ rest, sample gpio g s' rest = rest (s'.kernel.value s'.pin) { s' with log := s'.log ++ [.got g (if s'.kernel.value s'.pin then 1 else 0)] } := by
    intro g s' hg rest
    simp only [sample, gpio, hg]
    cases s'.kernel.value s'.pin <;> rfl
  have hput : ∀ (g : Nat) (b : Bool) (s' : State Gpio), s'.kernel.streams.find? (·.1 = g) = some (g, s'.pin, true) → store gpio g b s' = .next { s' with kernel := s'.kernel.set s'.pin b, state := b, log := s'.log ++ [.put g b true] } := by
    intro g b s' hg
    simp only [store, gpio, hg]
    rfl
  have hwrite : ∀ b, c = .write b → ∃ s' x', acquire gpio true s (fun h s => store gpio h b s) = .next s' ∧ Agrees sel (some true) s' x' ∧ Steady sel (some true) r ∧ meaning (c :: r) x = meaning r x' := by
    intro b hc
    subst hc
    obtain ⟨h1, h2, h3⟩ := hst
    obtain ⟨g, s', e, ha, hf, hg⟩ := acquire_gpio h h1 true (by simpa using h2) fun h s => store gpio h b s
    refine ⟨_, _, by rw [e, hput g b s' hg], ?_, h3, rfl⟩
    have hp := ha.pin h1
    refine ⟨ha.pin, ?_, rfl, ?_, ⟨g, hf, hg⟩⟩
    · simp only [Gpio.set]; rw [ha.value, hp.2]
    · simp only []; rw [printed_append, ha.out]; simp [printed]
  have hquiet : ∀ s' : State Gpio, c = .quiet → s'.pin = s.pin → s'.kernel = s.kernel → s'.state = s.state → printed s'.log = printed s.log → s'.fp = s.fp →
      Agrees sel mode s' x ∧ Steady sel mode r ∧ meaning (c :: r) x = meaning r x := by
    intro s' hc h1 h2 h3 h4 h5
    subst hc
    refine ⟨⟨?_, ?_, ?_, ?_, ?_⟩, hst, rfl⟩
    · rw [h1]; exact h.pin
    · rw [h2]; exact h.value
    · rw [h3]; exact h.last
    · rw [h4]; exact h.out
    · rw [h1, h2, h5]; exact h.stream
  have hconf : ∀ cf : Conf, c = .configure → (∀ b, cf ≠ .initialize b) → ∃ s', step gpio patience (.configure cf) s = .next s' ∧ Agrees sel mode s' x ∧ Steady sel mode r ∧ meaning (c :: r) x = meaning r x := by
    intro cf hc hn
    subst hc
    obtain ⟨h1, h2⟩ := hst
    have hp := h.pin h1
    have hg : gpio.configure cf s.pin s.kernel = (true, s.kernel) := by
      cases cf with
      | «initialize» b => exact absurd rfl (hn b)
      | _ => rfl
    refine ⟨{ s with log := s.log ++ [.configured s.pin cf true] }, ?_, ⟨h.pin, h.value, h.last, ?_, h.stream⟩, h2, rfl⟩
    · simp only [step, configure]
      rw [if_neg (by omega), hg]
      rfl
    · simp only []; rw [printed_append, h.out]; simp [printed]
  cases o with
  | pin text =>
    cases c with
    | select n =>
      right
      obtain ⟨v1, v2, v3⟩ := isPin_value hs
      have hn : (BitVec.ofNat 32 n).toInt = n := v3
      simp only [step, number, v1, v2, select, hn]
      rw [if_neg (by simp), if_neg (by omega)]
      cases hf : s.fp with
      | none =>
        refine ⟨_, true, none, { x with pin := n }, rfl, ⟨fun _ => ⟨by simp only []; omega, rfl⟩, h.value, h.last, h.out, rfl⟩, hst, rfl⟩
      | some g =>
        refine ⟨_, true, none, { x with pin := n }, rfl, ⟨fun _ => ⟨by simp only []; omega, rfl⟩, h.value, h.last, ?_, rfl⟩, hst, rfl⟩
        simp only []; rw [printed_append, h.out]; simp [printed]
    | _ => exact hs.elim
  | read =>
    cases c with
    | read =>
      right
      obtain ⟨h1, h2, h3⟩ := hst
      obtain ⟨g, s', e, ha, hf, hg⟩ := acquire_gpio h h1 false (by simpa using h2) fun h s => sample gpio h s fun b s => .next (print b s)
      have hp := ha.pin h1
      refine ⟨print (s'.kernel.value s'.pin) { s' with log := s'.log ++ [.got g (if s'.kernel.value s'.pin then 1 else 0)] }, sel, some false, { x with last := x.value x.pin, out := x.out ++ [x.value x.pin] }, by rw [step, e, hget g s' hg], ⟨ha.pin, ha.value, ?_, ?_, ⟨g, hf, hg⟩⟩, h3, rfl⟩
      · simp only [print]; rw [ha.value, hp.2]
      · simp only [print]; rw [printed_append, printed_append, ha.out, ha.value, hp.2]; simp [printed]
    | _ => exact hs.elim
  | write b =>
    cases c with
    | write b' =>
      right
      have : b = b' := hs
      subst this
      obtain ⟨s', x', e, h1, h2, h3⟩ := hwrite b rfl
      exact ⟨s', _, _, x', by rw [step]; exact e, h1, h2, h3⟩
    | _ => exact hs.elim
  | writeText text =>
    cases c with
    | write b =>
      right
      obtain ⟨n, hr, hn, hb⟩ := hs
      obtain ⟨s', x', e, h1, h2, h3⟩ := hwrite b rfl
      refine ⟨s', _, _, x', ?_, h1, h2, h3⟩
      rw [step, number_reads hr hn, ← hb]; exact e
    | _ => exact hs.elim
  | configure cf =>
    right
    cases cf with
    | «initialize» b =>
      cases c with
      | «initialize» b' =>
        have : b = b' := hs
        subst this
        obtain ⟨h1, h2⟩ := hst
        have hp := h.pin h1
        refine ⟨{ s with kernel := s.kernel.set s.pin b, log := s.log ++ [.configured s.pin (.initialize b) true] }, sel, mode, { x with value := fun q => if q = x.pin then b else x.value q }, ?_, ⟨h.pin, ?_, h.last, ?_, h.stream⟩, h2, rfl⟩
        · simp only [step, configure]
          rw [if_neg (by omega)]
          rfl
        · simp only [Gpio.set]; rw [h.value, hp.2]
        · simp only []; rw [printed_append, h.out]; simp [printed]
      | _ => exact hs.elim
    | edge e =>
      cases c with
      | configure =>
        obtain ⟨s', e, h1, h2, h3⟩ := hconf (.edge e) rfl (fun b q => (by cases q))
        exact ⟨s', _, _, x, e, h1, h2, h3⟩
      | _ => exact hs.elim
    | active b =>
      cases c with
      | configure =>
        obtain ⟨s', e, h1, h2, h3⟩ := hconf (.active b) rfl (fun b q => (by cases q))
        exact ⟨s', _, _, x, e, h1, h2, h3⟩
      | _ => exact hs.elim
    | direction b =>
      cases c with
      | configure =>
        obtain ⟨s', e, h1, h2, h3⟩ := hconf (.direction b) rfl (fun b q => (by cases q))
        exact ⟨s', _, _, x, e, h1, h2, h3⟩
      | _ => exact hs.elim
    | «export» =>
      cases c with
      | configure =>
        obtain ⟨s', e, h1, h2, h3⟩ := hconf (.export) rfl (fun b q => (by cases q))
        exact ⟨s', _, _, x, e, h1, h2, h3⟩
      | _ => exact hs.elim
    | unexport =>
      cases c with
      | configure =>
        obtain ⟨s', e, h1, h2, h3⟩ := hconf (.unexport) rfl (fun b q => (by cases q))
        exact ⟨s', _, _, x, e, h1, h2, h3⟩
      | _ => exact hs.elim
    | ignore =>
      cases c with
      | configure =>
        obtain ⟨s', e, h1, h2, h3⟩ := hconf (.ignore) rfl (fun b q => (by cases q))
        exact ⟨s', _, _, x, e, h1, h2, h3⟩
      | _ => exact hs.elim
  | test nonzero =>
    cases c with
    | test b =>
      have hb : nonzero = b := hs
      subst hb
      by_cases hq : x.last = nonzero
      · right
        refine ⟨s, sel, mode, x, by simp only [step]; rw [h.last, if_pos hq], h, hst, ?_⟩
        rw [meaning, if_pos hq]
      · left
        refine ⟨s, by simp only [step]; rw [h.last, if_neg hq], h, ?_⟩
        rw [meaning, if_neg hq]
    | _ => exact hs.elim
  | delay text =>
    cases c with
    | quiet =>
      right
      obtain ⟨n, hr, hn⟩ := hs
      obtain ⟨h1, h2, h3⟩ := hquiet { s with log := s.log ++ [.slept (ticks n)] } rfl rfl rfl rfl (by rw [printed_append]; simp [printed]) rfl
      exact ⟨_, _, _, x, by rw [step, number_reads hr hn]; rfl, h1, h2, h3⟩
    | _ => exact hs.elim
  | first =>
    cases c with
    | quiet =>
      obtain ⟨h1, h2, h3⟩ := hquiet { s with first := true } rfl rfl rfl rfl rfl rfl
      exact Or.inr ⟨_, _, _, x, rfl, h1, h2, h3⟩
    | _ => exact hs.elim
  | unique =>
    cases c with
    | quiet =>
      obtain ⟨h1, h2, h3⟩ := hquiet { s with unique := true } rfl rfl rfl rfl rfl rfl
      exact Or.inr ⟨_, _, _, x, rfl, h1, h2, h3⟩
    | _ => exact hs.elim
  | command text =>
    cases c with
    | quiet =>
      obtain ⟨h1, h2, h3⟩ := hquiet { s with command := some text } rfl rfl rfl rfl rfl rfl
      exact Or.inr ⟨_, _, _, x, by rw [step], h1, h2, h3⟩
    | _ => exact hs.elim
  | root text =>
    cases c with
    | quiet =>
      obtain ⟨h1, h2, h3⟩ := hquiet s rfl rfl rfl rfl rfl rfl
      exact Or.inr ⟨s, _, _, x, rfl, h1, h2, h3⟩
    | _ => exact hs.elim
  | daemon =>
    cases c with
    | quiet =>
      obtain ⟨h1, h2, h3⟩ := hquiet { s with log := s.log ++ [.daemonized true] } rfl rfl rfl rfl (by rw [printed_append]; simp [printed]) rfl
      exact Or.inr ⟨_, _, _, x, rfl, h1, h2, h3⟩
    | _ => exact hs.elim
  | debug =>
    cases c with
    | quiet =>
      obtain ⟨h1, h2, h3⟩ := hquiet s rfl rfl rfl rfl rfl rfl
      exact Or.inr ⟨s, _, _, x, rfl, h1, h2, h3⟩
    | _ => exact hs.elim
  | menu =>
    cases c with
    | quiet =>
      obtain ⟨h1, h2, h3⟩ := hquiet s rfl rfl rfl rfl rfl rfl
      exact Or.inr ⟨s, _, _, x, rfl, h1, h2, h3⟩
    | _ => exact hs.elim
  | poll text => cases c <;> exact hs.elim
  | watch t => cases c <;> exact hs.elim
  | other => cases c <;> exact hs.elim

/-- The loop follows the commands. -/
theorem loop_gpio (patience : Nat) {opts : List Opt} {cmds : List Command} (hl : Line opts cmds) : ∀ (sel : Bool) (mode : Option Bool) (s : State Gpio) (x : Account), Agrees sel mode s x → Steady sel mode cmds →
    ∃ s', loop gpio patience opts s = .exit 0 s' ∧ s'.kernel.value = (meaning cmds x).value ∧ printed s'.log = (meaning cmds x).out := by
  induction hl with
  | nil =>
    intro sel mode s x h _
    exact finish_gpio h 0
  | cons hs _ ih =>
    intro sel mode s x h hst
    rw [loop]
    rcases step_gpio patience h hs hst with ⟨s', e, h1, h2⟩ | ⟨s', sel', mode', x', e, h1, h2, h3⟩
    · rw [e, h2]
      exact finish_gpio h1 0
    · rw [e, h3]
      exact ih sel' mode' s' x' h1 h2

end Diminuto.Pintool
