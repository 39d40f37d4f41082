import Verif.LinetoolLemmas3

/-!
# Lemmas: the values of lines
-/

namespace Diminuto.Linetool

open Diminuto.Number (Reads)

variable (parse : List Byte → Option (List Byte × BitVec 32 × Bool))

/-- The state of the program and of the machine agree with what the user knows. -/
structure Agrees (s : State Gpio) (x : Account) : Prop where
  path : s.context.path = x.settings.path
  line : s.context.line.toNat = x.settings.line
  flags : s.context.flags = assemble x.settings.low x.settings.input x.settings.output x.settings.rising x.settings.falling
  period : s.context.useconds.toNat = x.settings.period
  level : s.kernel.level = x.level
  last : s.state = x.last
  out : printed s.log = x.out
  caught : s.caught = false
  fd : match x.open_ with | none => s.fd = none | some (p, low, o) => ∃ h, s.fd = some h ∧ s.kernel.open_.find? (·.1 = h) = some (h, p, low, o)

theorem number_reads {text : List Byte} {n : Nat} (h : Reads text false n []) (hn : n < 2 ^ 64) {σ : Type} (s : State σ) (rest : Nat → Flow σ) : number text s rest = rest n := by
  obtain ⟨q1, q2⟩ := reads_value h hn
  rw [number, q1, q2]; simp

theorem number32_reads {text : List Byte} {n : Nat} (h : Reads text false n []) (hn : n < 2 ^ 32) {σ : Type} (s : State σ) (rest : BitVec 32 → Flow σ) : number32 text s rest = rest (BitVec.ofNat 32 n) := by
  rw [number32, number_reads h (by omega)]
  exact if_neg (by omega)

theorem micro (v : Int) : Time.units2ticks v 1000000 = Time.chk (v * 1000) := rfl

theorem ticks_eq {n : Nat} (hn : n ≤ 9223372036854775) : ticks n = some (BitVec.ofNat 64 (n * 1000)) := by
  have h1 : (BitVec.ofNat 64 n).toInt = n := by
    rw [BitVec.toInt_ofNat']
    simp only [Int.bmod_def]
    omega
  rw [ticks, h1, micro, Time.chk, if_pos (by omega), Option.map_some, show ((n : Int) * 1000) = ((n * 1000 : Nat) : Int) by omega, BitVec.ofInt_natCast]

theorem flags_zero (l i o r g : Bool) : (if assemble l i o r g = 0 then 0x34#64 else assemble l i o r g).getLsbD 1 = l ∧ (if assemble l i o r g = 0 then 0x34#64 else assemble l i o r g).getLsbD 3 = o ∧
    ((if assemble l i o r g = 0 then 0x34#64 else assemble l i o r g).getLsbD 2 = (i || (!l && !o && !r && !g))) ∧
    (((if assemble l i o r g = 0 then 0x34#64 else assemble l i o r g).getLsbD 4 || (if assemble l i o r g = 0 then 0x34#64 else assemble l i o r g).getLsbD 5) = (r || g || (!l && !o && !i))) := by
  revert l i o r g; decide

/-- A machine accepts proper settings. -/
theorem open_gpio {s : State Gpio} {x : Account} (h : Agrees s x) (hp : Proper .open x) : ∃ path, s.context.path = some path ∧ x.settings.path = some path ∧
    (gpio parse).open_ s.context s.kernel = (some s.kernel.next, { s.kernel with open_ := (s.kernel.next, (path, x.settings.line), x.settings.low, x.settings.output) :: s.kernel.open_, next := s.kernel.next + 1 }) := by
  obtain ⟨_, h2, h3, h4, h5, h6⟩ := hp
  cases hpath : x.settings.path with
  | none => exact absurd hpath h2
  | some path =>
    have hc : s.context.path = some path := by rw [h.path, hpath]
    refine ⟨path, hc, rfl, ?_⟩
    obtain ⟨b1, b2, b3, b4⟩ := flags_zero x.settings.low x.settings.input x.settings.output x.settings.rising x.settings.falling
    simp only [gpio, hc]
    rw [h.flags, h.line, if_pos ?_, b1, b2]
    refine ⟨h3, ?_⟩
    rw [accepts, b2, b3, b4]
    have hu : decide (s.context.useconds = 0) = decide (x.settings.period = 0) := by
      rw [← h.period]
      exact decide_eq_decide.2 ⟨fun q => by rw [q]; rfl, fun q => BitVec.eq_of_toNat_eq (by rw [q]; rfl)⟩
    rw [hu]
    revert h4 h5 h6
    by_cases hz : x.settings.period = 0
    · simp only [hz, decide_true, Bool.true_or, Bool.and_true, ne_eq, not_true_eq_false, false_implies, implies_true]
      generalize x.settings.low = l, x.settings.input = i, x.settings.output = o, x.settings.rising = r, x.settings.falling = g
      revert l i o r g; decide
    · simp only [hz, decide_false, Bool.false_or, ne_eq, not_false_eq_true, true_implies]
      generalize x.settings.low = l, x.settings.input = i, x.settings.output = o, x.settings.rising = r, x.settings.falling = g
      revert l i o r g; decide

/-- The end of a run. -/
theorem finish_gpio {s : State Gpio} {x : Account} (h : Agrees s x) (c : Nat) : ∃ s', finish (gpio parse) c s = .exit c s' ∧ s'.kernel.level = x.level ∧ printed s'.log = x.out := by
  rw [finish, shut]
  cases hf : s.fd with
  | none => exact ⟨s, rfl, h.level, h.out⟩
  | some g =>
    refine ⟨_, rfl, h.level, ?_⟩
    simp only [gpio]
    rw [printed_append, h.out]; simp [printed]

/-- The line is closed. -/
theorem shut_gpio {s : State Gpio} {x : Account} (h : Agrees s x) : ∃ s', shut (gpio parse) s = (true, s') ∧ Agrees s' { x with open_ := none } := by
  rw [shut]
  cases hf : s.fd with
  | none => exact ⟨s, rfl, h.path, h.line, h.flags, h.period, h.level, h.last, h.out, h.caught, hf⟩
  | some g =>
    refine ⟨_, rfl, h.path, h.line, h.flags, h.period, h.level, h.last, ?_, h.caught, rfl⟩
    simp only [gpio]
    rw [printed_append, h.out]; simp [printed]

theorem get_gpio {s : State Gpio} {g : Nat} {p : Place} {low o : Bool} (hg : s.kernel.open_.find? (·.1 = g) = some (g, p, low, o)) (rest : Bool → State Gpio → Flow Gpio) :
    sample (gpio parse) g s rest = rest (s.kernel.level p != low) { s with log := s.log ++ [.got g (some (s.kernel.level p != low))] } := by
  simp only [sample, gpio, hg]

theorem put_gpio {s : State Gpio} {g : Nat} {p : Place} {low : Bool} (hg : s.kernel.open_.find? (·.1 = g) = some (g, p, low, true)) (b : Bool) :
    store (gpio parse) g b s = .next { s with kernel := { s.kernel with level := fun q => if q = p then b != low else s.kernel.level q }, state := b, log := s.log ++ [.put g b true] } := by
  simp only [store, gpio, hg]
  rfl

/-- What a command makes of what the user knows. -/
theorem step_gpio (patience : Nat) {s : State Gpio} {x : Account} {o : Opt} {c : Command} (h : Agrees s x) (hs : Spelled parse o c) (hp : Proper c x) :
    (∃ s', step (gpio parse) patience o s = .stop 0 s' ∧ Agrees s' x ∧ ∃ b, c = .test b ∧ x.last ≠ b) ∨
    (∃ s', step (gpio parse) patience o s = .next s' ∧ Agrees s' (effect c x) ∧ ∀ b, c = .test b → x.last = b) := by
  have hquiet : ∀ s' : State Gpio, c = .quiet → s'.context = s.context → s'.kernel = s.kernel → s'.state = s.state → printed s'.log = printed s.log → s'.fd = s.fd → s'.caught = s.caught → Agrees s' (effect c x) := by
    intro s' hc h1 h2 h3 h4 h5 h6
    subst hc
    refine ⟨?_, ?_, ?_, ?_, ?_, ?_, ?_, ?_, ?_⟩
    · rw [h1]; exact h.path
    · rw [h1]; exact h.line
    · rw [h1]; exact h.flags
    · rw [h1]; exact h.period
    · rw [h2]; exact h.level
    · rw [h3]; exact h.last
    · rw [h4]; exact h.out
    · rw [h6]; exact h.caught
    · rw [h2, h5]; exact h.fd
  have hwrite : ∀ b, c = .write b → ∃ s', need s (fun g => store (gpio parse) g b s) = .next s' ∧ Agrees s' (effect c x) := by
    intro b hc
    subst hc
    obtain ⟨p, low, ho⟩ := hp
    have hf := h.fd
    rw [ho] at hf
    obtain ⟨g, hf, hg⟩ := hf
    refine ⟨_, by rw [need, hf]; exact put_gpio parse hg b, ?_⟩
    have he : effect (.write b) x = { x with last := b, level := fun q => if q = p then b != low else x.level q } := by simp only [effect, ho]
    rw [he]
    refine ⟨h.path, h.line, h.flags, h.period, ?_, rfl, ?_, h.caught, ?_⟩
    · simp only []; rw [h.level]
    · simp only []; rw [printed_append, h.out]; simp [printed]
    · simp only [ho]; exact ⟨g, hf, hg⟩
  cases o with
  | flag f =>
    cases c with
    | set f' =>
      have : f = f' := hs
      subst this
      refine Or.inr ⟨_, rfl, ⟨?_, ?_, ?_, ?_, h.level, h.last, h.out, h.caught, h.fd⟩, fun _ q => (by cases q)⟩
      · simp only [effect]; cases f <;> exact h.path
      · simp only [effect]; cases f <;> exact h.line
      · simp only [effect]
        rw [h.flags, setFlags_assemble]
        cases f <;> rfl
      · simp only [effect]; cases f <;> exact h.period
    | _ => exact hs.elim
  | device text =>
    cases c with
    | device path =>
      have : text = path := hs
      subst this
      exact Or.inr ⟨_, rfl, ⟨rfl, h.line, h.flags, h.period, h.level, h.last, h.out, h.caught, h.fd⟩, fun _ q => (by cases q)⟩
    | _ => exact hs.elim
  | debounce text =>
    cases c with
    | period n =>
      obtain ⟨h1, h2⟩ := hs
      refine Or.inr ⟨{ s with context := { s.context with useconds := BitVec.ofNat 32 n } }, by rw [step, number32_reads h1 h2], ⟨h.path, h.line, h.flags, ?_, h.level, h.last, h.out, h.caught, h.fd⟩, fun _ q => (by cases q)⟩
      simp only [effect, BitVec.toNat_ofNat]
      omega
    | _ => exact hs.elim
  | line text =>
    cases c with
    | line low n =>
      right
      cases hs with
      | plain h1 h2 h3 =>
        have hh : ¬ (decide (text[0]? = some 0x2d#8) = true) := by rw [← List.head?_eq_getElem?]; simpa using h1
        refine ⟨{ s with context := invert (decide (text[0]? = some 0x2d#8)) { s.context with line := BitVec.ofNat 32 n } }, by simp only [step]; rw [if_neg hh, number32_reads h2 h3], ⟨?_, ?_, ?_, ?_, h.level, h.last, h.out, h.caught, h.fd⟩, fun _ q => (by cases q)⟩
        · simp only [effect]; rw [invert_path]; exact h.path
        · simp only [effect]; rw [invert_line]; simp only [BitVec.toNat_ofNat]; omega
        · simp only [effect]; rw [invert_flags _ _ _ _ _ h.flags]
          rw [show decide (text[0]? = some 0x2d#8) = false by simpa using hh, Bool.false_or, Bool.or_false]
        · simp only [effect]; rw [invert_useconds]; exact h.period
      | @inverted text n h2 h3 =>
        have hh : decide ((0x2d#8 :: text)[0]? = some 0x2d#8) = true := by simp
        refine ⟨{ s with context := invert (decide ((0x2d#8 :: text)[0]? = some 0x2d#8)) { s.context with line := BitVec.ofNat 32 n } }, by simp only [step]; rw [if_pos hh, List.drop_succ_cons, List.drop_zero, number32_reads h2 h3], ⟨?_, ?_, ?_, ?_, h.level, h.last, h.out, h.caught, h.fd⟩, fun _ q => (by cases q)⟩
        · simp only [effect]; rw [invert_path]; exact h.path
        · simp only [effect]; rw [invert_line]; simp only [BitVec.toNat_ofNat]; omega
        · simp only [effect]; rw [invert_flags _ _ _ _ _ h.flags, hh, Bool.true_or, Bool.or_true]
        · simp only [effect]; rw [invert_useconds]; exact h.period
    | _ => exact hs.elim
  | place text =>
    cases c with
    | place path n low =>
      obtain ⟨l, h1, h2⟩ := hs
      have h1' : (gpio parse).parse text = some (path, l, low) := h1
      refine Or.inr ⟨{ s with context := invert low { s.context with path := some path, line := l } }, by simp only [step]; rw [h1'], ⟨?_, ?_, ?_, ?_, h.level, h.last, h.out, h.caught, h.fd⟩, fun _ q => (by cases q)⟩
      · simp only [effect]; rw [invert_path]
      · simp only [effect]; rw [invert_line]; exact h2
      · simp only [effect]; rw [invert_flags _ _ _ _ _ h.flags, Bool.or_comm]
      · simp only [effect]; rw [invert_useconds]; exact h.period
    | _ => exact hs.elim
  | configure =>
    cases c with
    | «open» =>
      obtain ⟨path, h1, h2, h3⟩ := open_gpio parse h hp
      have hf : s.fd = none := by have := h.fd; rw [hp.1] at this; exact this
      have he : step (gpio parse) patience .configure s = .next { s with fd := some s.kernel.next, kernel := { s.kernel with open_ := (s.kernel.next, (path, x.settings.line), x.settings.low, x.settings.output) :: s.kernel.open_, next := s.kernel.next + 1 }, log := s.log ++ [.opened s.context (some s.kernel.next)] } := by
        simp only [step, hf]
        change (match ((gpio parse).open_ s.context s.kernel).1 with | none => _ | some _ => _) = _
        simp only [h3]
      refine Or.inr ⟨_, he, ⟨h.path, h.line, h.flags, h.period, h.level, h.last, ?_, h.caught, ?_⟩, fun _ q => (by cases q)⟩
      · simp only [effect]; rw [printed_append, h.out]; simp [printed]
      · simp only [effect, h2, Option.getD_some]
        exact ⟨_, rfl, by simp⟩
    | _ => exact hs.elim
  | shut =>
    cases c with
    | close =>
      obtain ⟨s', h1, h2⟩ := shut_gpio parse h
      exact Or.inr ⟨s', by simp only [step]; rw [h1]; rfl, h2, fun _ q => (by cases q)⟩
    | _ => exact hs.elim
  | clear =>
    cases c with
    | clear =>
      have h0 : Agrees { s with context := blank } { x with settings := .blank } := ⟨rfl, rfl, rfl, rfl, h.level, h.last, h.out, h.caught, h.fd⟩
      obtain ⟨s', h1, h2⟩ := shut_gpio parse h0
      exact Or.inr ⟨s', by simp only [step]; rw [h1]; rfl, h2, fun _ q => (by cases q)⟩
    | _ => exact hs.elim
  | read =>
    cases c with
    | read =>
      cases ho : x.open_ with
      | none => exact absurd ho hp
      | some y =>
        obtain ⟨p, low, o⟩ := y
        have hf := h.fd
        rw [ho] at hf
        obtain ⟨g, hf, hg⟩ := hf
        have he : effect .read x = { x with last := (x.level p != low), out := x.out ++ [x.level p != low] } := by simp only [effect, ho]
        refine Or.inr ⟨_, by simp only [step, need]; rw [hf]; exact get_gpio parse hg _, ?_, fun _ q => (by cases q)⟩
        rw [he]
        refine ⟨h.path, h.line, h.flags, h.period, h.level, ?_, ?_, h.caught, ?_⟩
        · simp only [print]; rw [h.level]
        · simp only [print]; rw [printed_append, printed_append, h.out, h.level]; simp [printed]
        · simp only [ho, print]; exact ⟨g, hf, hg⟩
    | _ => exact hs.elim
  | write b =>
    cases c with
    | write b' =>
      have : b = b' := hs
      subst this
      obtain ⟨s', e, h1⟩ := hwrite b rfl
      exact Or.inr ⟨s', by rw [step]; exact e, h1, fun _ q => (by cases q)⟩
    | _ => exact hs.elim
  | writeText text =>
    cases c with
    | write b =>
      obtain ⟨n, hr, hn, hb⟩ := hs
      obtain ⟨s', e, h1⟩ := hwrite b rfl
      refine Or.inr ⟨s', ?_, h1, fun _ q => (by cases q)⟩
      rw [step, number_reads hr hn, ← hb]; exact e
    | _ => exact hs.elim
  | test nonzero =>
    cases c with
    | test b =>
      have hb : nonzero = b := hs
      subst hb
      by_cases hq : x.last = nonzero
      · exact Or.inr ⟨s, by simp only [step]; rw [h.last, if_pos hq], h, fun b e => by injection e with e; rw [← e]; exact hq⟩
      · exact Or.inl ⟨s, by simp only [step]; rw [h.last, if_neg hq], h, nonzero, rfl, hq⟩
    | _ => exact hs.elim
  | delay text =>
    cases c with
    | quiet =>
      obtain ⟨n, hr, hn⟩ := hs
      exact Or.inr ⟨{ s with log := s.log ++ [.slept (BitVec.ofNat 64 (n * 1000))] }, by rw [step, number_reads hr (by omega), ticks_eq hn]; rfl, hquiet _ rfl rfl rfl rfl (by rw [printed_append]; simp [printed]) rfl rfl, fun _ q => (by cases q)⟩
    | _ => exact hs.elim
  | first =>
    cases c with
    | quiet => exact Or.inr ⟨_, rfl, hquiet { s with first := true } rfl rfl rfl rfl rfl rfl rfl, fun _ q => (by cases q)⟩
    | _ => exact hs.elim
  | unique =>
    cases c with
    | quiet => exact Or.inr ⟨_, rfl, hquiet { s with unique := true } rfl rfl rfl rfl rfl rfl rfl, fun _ q => (by cases q)⟩
    | _ => exact hs.elim
  | command text =>
    cases c with
    | quiet => exact Or.inr ⟨{ s with command := some text }, rfl, hquiet _ rfl rfl rfl rfl rfl rfl rfl, fun _ q => (by cases q)⟩
    | _ => exact hs.elim
  | daemon =>
    cases c with
    | quiet => exact Or.inr ⟨{ s with log := s.log ++ [.daemonized true] }, rfl, hquiet _ rfl rfl rfl rfl (by rw [printed_append]; simp [printed]) rfl rfl, fun _ q => (by cases q)⟩
    | _ => exact hs.elim
  | context =>
    cases c with
    | quiet =>
      refine Or.inr ⟨flush (gpio parse) { s with log := s.log ++ [.shown s.context s.fd] }, rfl, hquiet _ rfl rfl rfl rfl ?_ rfl ?_, fun _ q => (by cases q)⟩
      · simp only [flush]; rw [printed_append, printed_append]; simp [printed]
      · simp [flush, gpio]
    | _ => exact hs.elim
  | menu =>
    cases c with
    | quiet => exact Or.inr ⟨s, rfl, hquiet s rfl rfl rfl rfl rfl rfl rfl, fun _ q => (by cases q)⟩
    | _ => exact hs.elim
  | poll text => cases c <;> exact hs.elim
  | watch t => cases c <;> exact hs.elim
  | other => cases c <;> exact hs.elim

theorem meaning_cons (c : Command) (r : List Command) (x : Account) (h : ∀ b, c = .test b → x.last = b) : meaning (c :: r) x = meaning r (effect c x) := by
  cases c with
  | test b => rw [meaning, if_pos (h b rfl)]; rfl
  | _ => rfl

theorem steady_cons {c : Command} {r : List Command} {x : Account} (hs : Steady (c :: r) x) : Proper c x ∧ ((∀ b, c = .test b → x.last = b) → Steady r (effect c x)) := by
  cases c with
  | test b => exact ⟨trivial, fun h => hs (h b rfl)⟩
  | _ => exact ⟨hs.1, fun _ => hs.2⟩

/-- The loop follows the commands. -/
theorem loop_gpio (patience : Nat) {opts : List Opt} {cmds : List Command} (hl : Script parse opts cmds) : ∀ (s : State Gpio) (x : Account), Agrees s x → Steady cmds x →
    ∃ s', loop (gpio parse) patience opts s = .exit 0 s' ∧ s'.kernel.level = (meaning cmds x).level ∧ printed s'.log = (meaning cmds x).out := by
  induction hl with
  | nil =>
    intro s x h _
    exact finish_gpio parse h 0
  | @cons o c os cs hs _ ih =>
    intro s x h hst
    rw [loop, if_neg (by rw [h.caught]; simp)]
    obtain ⟨hp, hst'⟩ := steady_cons hst
    rcases step_gpio parse patience h hs hp with ⟨s', e, h1, b, h2, h3⟩ | ⟨s', e, h1, h2⟩
    · rw [e, h2, meaning, if_neg h3]
      exact finish_gpio parse h1 0
    · rw [e, meaning_cons c cs x h2]
      exact ih s' _ h1 (hst' h2)

end Diminuto.Linetool
