import Verif.LinetoolLemmas
import Verif.NumberProps

/-!
# Lemmas: the settings of the tool that manipulates lines
-/

namespace Diminuto.Linetool

open Diminuto.Number (Reads)

variable {σ : Type} (a : Api σ)

/-- The settings are kept, and no line is opened. -/
def Kept (s s' : State σ) : Prop :=
  (s'.first = s.first ∧ s'.unique = s.unique ∧ s'.command = s.command ∧ s'.context = s.context ∧ s'.sticks = s.sticks ∧ (s'.fd = none ∨ s'.fd = s.fd)) ∧ ∃ acts, s'.log = s.log ++ acts ∧ ∀ c r, Act.opened c r ∉ acts

theorem Kept.refl (s : State σ) : Kept s s := ⟨⟨rfl, rfl, rfl, rfl, rfl, Or.inr rfl⟩, [], by simp, by simp⟩

theorem Kept.trans {s s1 s2 : State σ} (h : Kept s s1) (h' : Kept s1 s2) : Kept s s2 := by
  obtain ⟨⟨h1, h2, h3, h4, h5, h8⟩, x, h6, h7⟩ := h
  obtain ⟨⟨g1, g2, g3, g4, g5, g8⟩, y, g6, g7⟩ := h'
  exact ⟨⟨g1.trans h1, g2.trans h2, g3.trans h3, g4.trans h4, g5.trans h5, g8.elim Or.inl fun q => by rw [q]; exact h8⟩, x ++ y, by rw [g6, h6, List.append_assoc], fun c r hm => (List.mem_append.mp hm).elim (h7 c r) (g7 c r)⟩

/-- Whatever comes of it keeps the settings. -/
def Keeps (s : State σ) : Flow σ → Prop
  | .next s' => Kept s s'
  | .stop _ s' => Kept s s'
  | .busy s' => Kept s s'
  | .undefined => True

theorem Keeps.trans {s s1 : State σ} {f : Flow σ} (h : Kept s s1) (h' : Keeps s1 f) : Keeps s f := by
  cases f with
  | next s' => exact h.trans h'
  | busy s' => exact h.trans h'
  | stop c s' => exact h.trans h'
  | undefined => trivial

theorem keeps_need (s : State σ) (rest : Nat → Flow σ) (hr : ∀ h, Keeps s (rest h)) : Keeps s (need s rest) := by
  unfold need
  cases s.fd with
  | none => exact Kept.refl s
  | some h => exact hr h

theorem kept_one {s s' : State σ} {e : Act} (h1 : s'.log = s.log ++ [e]) (h2 : s'.first = s.first ∧ s'.unique = s.unique ∧ s'.command = s.command ∧ s'.context = s.context ∧ s'.sticks = s.sticks ∧ (s'.fd = none ∨ s'.fd = s.fd)) (he : ∀ c r, e ≠ .opened c r) : Kept s s' :=
  ⟨h2, [e], h1, fun c r hm => he c r (List.mem_singleton.mp hm).symm⟩

theorem kept_quiet {s s' : State σ} (h1 : s'.log = s.log) (h2 : s'.first = s.first ∧ s'.unique = s.unique ∧ s'.command = s.command ∧ s'.context = s.context ∧ s'.sticks = s.sticks ∧ (s'.fd = none ∨ s'.fd = s.fd)) : Kept s s' :=
  ⟨h2, [], by simp [h1], by simp⟩

theorem keeps_sample (h : Nat) (s : State σ) (rest : Bool → State σ → Flow σ) (hr : ∀ b s', Keeps s' (rest b s')) : Keeps s (sample a h s rest) := by
  unfold sample
  rcases hg : a.get h s.kernel with ⟨v, k⟩
  have hx : Kept s { s with kernel := k, log := s.log ++ [.got h v] } := kept_one rfl ⟨rfl, rfl, rfl, rfl, rfl, Or.inr rfl⟩ (by simp)
  cases v with
  | none => exact hx
  | some b => exact Keeps.trans hx (hr _ _)

theorem kept_flush (s : State σ) : Kept s (flush a s) := kept_one rfl ⟨rfl, rfl, rfl, rfl, rfl, Or.inr rfl⟩ (by simp)

theorem kept_print (b : Bool) (s : State σ) : Kept s (print b s) := kept_one rfl ⟨rfl, rfl, rfl, rfl, rfl, Or.inr rfl⟩ (by simp)

theorem kept_report (b : Bool) (s : State σ) : Kept s (flush a (print b s)) := (kept_print b s).trans (kept_flush a _)

theorem keeps_store (h : Nat) (b : Bool) (s : State σ) : Keeps s (store a h b s) := by
  unfold store
  rcases hg : a.put h b s.kernel with ⟨ok, k⟩
  cases ok with
  | true => exact kept_one rfl ⟨rfl, rfl, rfl, rfl, rfl, Or.inr rfl⟩ (by simp)
  | false => exact kept_one rfl ⟨rfl, rfl, rfl, rfl, rfl, Or.inr rfl⟩ (by simp)

theorem keeps_polling (h : Nat) (t : BitVec 64) : ∀ (n : Nat) (cue : Cue.State) (s : State σ), Keeps s (polling a h t n cue s) := by
  intro n
  induction n with
  | zero => intro cue s; exact Kept.refl s
  | succ n ih =>
    intro cue s
    unfold polling
    by_cases hc : s.caught = true
    · rw [if_pos hc]
      exact kept_quiet rfl ⟨rfl, rfl, rfl, rfl, rfl, Or.inr rfl⟩
    · rw [if_neg hc]
      have h0 : Kept s { s with kernel := a.delay t s.kernel, log := s.log ++ [.slept t] } := kept_one rfl ⟨rfl, rfl, rfl, rfl, rfl, Or.inr rfl⟩ (by simp)
      refine Keeps.trans h0 (keeps_sample a h _ _ ?_)
      intro b s'
      simp only []
      by_cases hq : (Cue.debounce cue (if b then 1 else 0)).r ≠ s.state
      · rw [if_pos hq]
        exact Keeps.trans (kept_report a _ _) (ih _ _)
      · rw [if_neg hq]
        have h2 : Kept s' { s' with state := (Cue.debounce cue (if b then 1 else 0)).r } := kept_quiet rfl ⟨rfl, rfl, rfl, rfl, rfl, Or.inr rfl⟩
        exact Keeps.trans h2 (ih _ _)

theorem keeps_poll (patience : Nat) (t : BitVec 64) (h : Nat) (s : State σ) : Keeps s (poll a patience t h s) := by
  unfold poll
  exact keeps_sample a h s _ fun b s' => Keeps.trans (kept_report a b s') (keeps_polling a h t _ _ _)

theorem keeps_notice (b : Bool) (prior : Option Bool) (s : State σ) (rest : State σ → Flow σ) (hr : ∀ s', Keeps s' (rest s')) : Keeps s (notice a b prior s rest) := by
  unfold notice
  by_cases hq : s.unique = true ∧ prior = some b
  · rw [if_pos hq]
    have h2 : Kept s { s with state := b } := kept_quiet rfl ⟨rfl, rfl, rfl, rfl, rfl, Or.inr rfl⟩
    exact Keeps.trans h2 (hr _)
  · rw [if_neg hq]
    cases hc : s.command with
    | none => exact Keeps.trans (kept_report a b s) (hr _)
    | some text =>
      simp only []
      cases hp : s.context.path with
      | none => trivial
      | some path =>
        simp only []
        have h0 : ∀ ok, Kept s { s with command := some text, state := b, kernel := (a.system (commandLine text path s.context.line b prior) s.kernel).2, log := s.log ++ [.ran (commandLine text path s.context.line b prior) ok] } :=
          fun ok => kept_one rfl ⟨rfl, rfl, hc.symm, rfl, rfl, Or.inr rfl⟩ (by simp)
        cases hg : (a.system (commandLine text path s.context.line b prior) s.kernel).1 with
        | true =>
          rw [if_pos rfl]
          exact Keeps.trans (h0 true) (hr _)
        | false =>
          rw [if_neg (by simp)]
          exact h0 false

theorem kept_await (h : Nat) (s : State σ) : Kept s (await a h s).2 := by
  unfold await
  by_cases hp : s.pending = true
  · rw [if_pos hp]
    exact kept_one rfl ⟨rfl, rfl, rfl, rfl, rfl, Or.inr rfl⟩ (by simp)
  · rw [if_neg hp]
    exact kept_one rfl ⟨rfl, rfl, rfl, rfl, rfl, Or.inr rfl⟩ (by simp)

theorem keeps_watching (h : Nat) : ∀ (n : Nat) (prior : Option Bool) (s : State σ), Keeps s (watching a h n prior s) := by
  intro n
  induction n with
  | zero => intro prior s; exact Kept.refl s
  | succ n ih =>
    intro prior s
    unfold watching
    by_cases hc : s.caught = true
    · rw [if_pos hc]
      exact kept_quiet rfl ⟨rfl, rfl, rfl, rfl, rfl, Or.inr rfl⟩
    · rw [if_neg hc]
      have h1 := kept_await a h s
      rcases hw : await a h s with ⟨r, s1⟩
      rw [hw] at h1
      cases r with
      | failed => exact h1
      | interrupted => exact Keeps.trans h1 (ih _ _)
      | timeout => exact Keeps.trans h1 (ih _ _)
      | ready =>
        refine Keeps.trans h1 ?_
        simp only []
        have hx : ∀ e, Kept s1 { s1 with kernel := (a.read h s1.kernel).2, log := s1.log ++ [.read h e] } :=
          fun e => kept_one rfl ⟨rfl, rfl, rfl, rfl, rfl, Or.inr rfl⟩ (by simp)
        cases hg : (a.read h s1.kernel).1 with
        | failed => exact hx _
        | again => exact Keeps.trans (hx _) (ih _ _)
        | edge b => exact Keeps.trans (hx _) (keeps_notice a _ _ _ _ fun s' => ih _ s')

theorem keeps_watch (patience h : Nat) (s : State σ) : Keeps s (watch a patience h s) := by
  unfold watch
  have h0 : Kept s { s with blocked := true } := kept_quiet rfl ⟨rfl, rfl, rfl, rfl, rfl, Or.inr rfl⟩
  refine Keeps.trans h0 ?_
  by_cases hf : s.first = true
  · simp only []
    rw [if_pos hf]
    exact keeps_sample a h _ _ fun b s' => Keeps.trans (kept_report a b s') (keeps_watching a h _ _ _)
  · simp only []
    rw [if_neg hf]
    exact keeps_watching a h _ _ _

theorem kept_shut (s : State σ) : Kept s (shut a s).2 := by
  unfold shut
  cases hf : s.fd with
  | none => exact Kept.refl s
  | some h =>
    refine kept_one rfl ⟨rfl, rfl, rfl, rfl, rfl, ?_⟩ (by simp)
    simp only []
    cases (a.close h s.kernel).1 with
    | true => exact Or.inl rfl
    | false => exact Or.inr hf.symm

theorem keeps_number (text : List Byte) (s : State σ) (rest : Nat → Flow σ) (hr : ∀ u, Keeps s (rest u)) : Keeps s (number text s rest) := by
  unfold number
  by_cases h : (Number.unsigned text).2.1 ≠ []
  · rw [if_pos h]; exact Kept.refl s
  · rw [if_neg h]; exact hr _

/-- The options that are not about settings keep them. -/
def isSetting : Opt → Bool
  | .first | .flag _ | .device _ | .debounce _ | .place _ | .unique | .command _ | .clear | .line _ | .watch _ | .configure => true
  | _ => false

theorem keeps_step (patience : Nat) (o : Opt) (s : State σ) (ho : isSetting o = false) : Keeps s (step a patience o s) := by
  cases o with
  | context =>
    have h0 : Kept s { s with log := s.log ++ [.shown s.context s.fd] } := kept_one rfl ⟨rfl, rfl, rfl, rfl, rfl, Or.inr rfl⟩ (by simp)
    exact h0.trans (kept_flush a _)
  | daemon =>
    simp only [step]
    cases hg : (a.daemon s.kernel).1 with
    | true => rw [if_pos rfl]; exact kept_one rfl ⟨rfl, rfl, rfl, rfl, rfl, Or.inr rfl⟩ (by simp)
    | false => rw [if_neg (by simp)]; exact kept_one rfl ⟨rfl, rfl, rfl, rfl, rfl, Or.inr rfl⟩ (by simp)
  | poll text =>
    simp only [step]
    refine keeps_number _ _ _ fun u => ?_
    cases ticks u with
    | none => trivial
    | some t => exact keeps_need s _ fun h => keeps_poll a patience t h s
  | write b => exact keeps_need s _ fun h => keeps_store a h b s
  | shut =>
    simp only [step]
    have := kept_shut a s
    cases hb : (shut a s).1 with
    | true => rw [if_pos rfl]; exact this
    | false => rw [if_neg (by simp)]; exact this
  | test nonzero =>
    simp only [step]
    by_cases h : s.state = nonzero
    · rw [if_pos h]; exact Kept.refl s
    · rw [if_neg h]; exact Kept.refl s
  | read => exact keeps_need s _ fun h => keeps_sample a h s _ fun b s' => kept_print b s'
  | delay text =>
    simp only [step]
    refine keeps_number _ _ _ fun u => ?_
    cases ticks u with
    | none => trivial
    | some t => exact kept_one rfl ⟨rfl, rfl, rfl, rfl, rfl, Or.inr rfl⟩ (by simp)
  | writeText text => exact keeps_number _ _ _ fun u => keeps_need s _ fun h => keeps_store a h _ s
  | menu => exact Kept.refl s
  | other => exact Kept.refl s
  | _ => cases ho

/-- The time for `-m`, which is set if it is positive. -/
theorem watch_step (patience : Nat) (text : List Byte) (s s' : State σ) (h : Leads (step a patience (.watch text) s) s') :
    s'.first = s.first ∧ s'.unique = s.unique ∧ s'.command = s.command ∧ s'.context = s.context ∧ (s'.fd = none ∨ s'.fd = s.fd) ∧ ∃ acts, s'.log = s.log ++ acts ∧ ∀ c r, Act.opened c r ∉ acts := by
  have key : ∀ f : Flow σ, ∀ t : Int, Keeps { s with sticks := t } f → Leads f s' →
      s'.first = s.first ∧ s'.unique = s.unique ∧ s'.command = s.command ∧ s'.context = s.context ∧ (s'.fd = none ∨ s'.fd = s.fd) ∧ ∃ acts, s'.log = s.log ++ acts ∧ ∀ c r, Act.opened c r ∉ acts := by
    intro f t hk hl
    rcases hl with hl | ⟨c, hl⟩ | hl <;> rw [hl] at hk <;> obtain ⟨⟨h1, h2, h3, h4, _, h6⟩, h5⟩ := hk <;> exact ⟨h1, h2, h3, h4, h6, h5⟩
  simp only [step] at h
  by_cases hz : (Number.signed text).2.1 ≠ []
  · rw [if_pos hz] at h
    exact key (.stop 1 s) s.sticks (Kept.refl s) h
  · rw [if_neg hz] at h
    generalize (if (Number.signed text).1 > 0 then Time.units2ticks (Number.signed text).1 1000000 else some s.sticks) = r at h
    cases r with
    | none => rcases h with h | ⟨c, h⟩ | h <;> cases h
    | some t => exact key _ t (keeps_need _ _ fun h => keeps_watch a patience h _) h

theorem latest_snoc {α : Type} (says : Opt → Option α) (x : List Opt) (o : Opt) : latest says (x ++ [o]) = (says o).or (latest says x) := by
  induction x with
  | nil => simp [latest]
  | cons e x ih => simp only [List.cons_append, latest, ih, Option.or_assoc]

theorem asked_same {parse : List Byte → Option (List Byte × BitVec 32 × Bool)} {opts : List Opt} {o : Opt} {c : Context} (h : Asked parse opts c) (h1 : saysPath parse o = none) (h2 : saysLine parse o = none) (h3 : saysLow parse o = none)
    (h4 : saysInput o = none) (h5 : saysOutput o = none) (h6 : saysRising o = none) (h7 : saysFalling o = none) (h8 : saysPeriod o = none) : Asked parse (opts ++ [o]) c := by
  refine ⟨?_, ?_, ?_, ?_⟩
  · rw [latest_snoc, h1, Option.none_or]; exact h.path
  · rw [latest_snoc, h2, Option.none_or]; exact h.line
  · rw [latest_snoc, latest_snoc, latest_snoc, latest_snoc, latest_snoc, h3, h4, h5, h6, h7]
    simp only [Option.none_or]; exact h.flags
  · rw [latest_snoc, h8, Option.none_or]; exact h.period

theorem setFlags_assemble (f : Flag) (l i o r g : Bool) : setFlags f (assemble l i o r g) =
    (match f with
    | .both => assemble l i o true true
    | .rising => assemble l i o true g
    | .falling => assemble l i o r true
    | .none => assemble l i o false false
    | .active low => assemble low i o r g
    | .initial low => assemble low false true false false
    | .input => assemble l true o r g
    | .output => assemble l i true r g) := by
  cases f with
  | active low => revert low l i o r g; decide
  | initial low => revert low l i o r g; decide
  | _ => revert l i o r g; decide

theorem low_assemble (l i o r g : Bool) : assemble l i o r g ||| LOW = assemble true i o r g := by
  revert l i o r g; decide

theorem invert_flags (low : Bool) (p : Option (List Byte)) (n : BitVec 32) (w : BitVec 64) (u : BitVec 32) {l i o r g : Bool} (h : w = assemble l i o r g) : (invert low ⟨p, n, w, u⟩).flags = assemble (low || l) i o r g := by
  cases low with
  | false => exact h
  | true => simp only [invert, if_true, h, low_assemble, Bool.true_or]

theorem invert_path (low : Bool) (c : Context) : (invert low c).path = c.path := by cases low <;> rfl
theorem invert_line (low : Bool) (c : Context) : (invert low c).line = c.line := by cases low <;> rfl
theorem invert_useconds (low : Bool) (c : Context) : (invert low c).useconds = c.useconds := by cases low <;> rfl

theorem number_next {text : List Byte} {s s' : State σ} {rest : Nat → Flow σ} (h : number text s rest = .next s') : rest (Number.unsigned text).1 = .next s' := by
  unfold number at h
  by_cases hz : (Number.unsigned text).2.1 ≠ []
  · rw [if_pos hz] at h; cases h
  · rw [if_neg hz] at h; exact h

theorem number32_next {text : List Byte} {s s' : State σ} {rest : BitVec 32 → Flow σ} (h : number32 text s rest = .next s') : rest (BitVec.ofNat 32 (Number.unsigned text).1) = .next s' := by
  have := number_next h
  by_cases hz : (Number.unsigned text).1 > 4294967295
  · rw [if_pos hz] at this; cases this
  · rw [if_neg hz] at this; exact this

theorem reads_value {text : List Byte} {n : Nat} (h : Reads text false n []) (hn : n < 2 ^ 64) : (Number.unsigned text).1 = n ∧ (Number.unsigned text).2.1 = [] := by
  obtain ⟨q1, _, _, q4, _⟩ := Number.number_unsigned_reads h
  exact ⟨q1 hn rfl, q4⟩

/-- The context is what has been asked for, and remains so. -/
theorem asked_step {patience : Nat} {opts : List Opt} {o : Opt} {s s' : State σ} (h : Asked a.parse opts s.context) (hs : step a patience o s = .next s') : Asked a.parse (opts ++ [o]) s'.context := by
  have hkeep : isSetting o = false → s'.context = s.context := by
    intro ho
    have := keeps_step a patience o s ho
    rw [hs] at this
    exact this.1.2.2.2.1
  cases o with
  | flag f =>
    injection hs with hs
    rw [← hs]
    have hf := h.flags
    refine ⟨by rw [latest_snoc]; exact h.path, by rw [latest_snoc]; exact h.line, ?_, by rw [latest_snoc]; exact h.period⟩
    simp only []
    rw [hf, setFlags_assemble, latest_snoc, latest_snoc, latest_snoc, latest_snoc, latest_snoc]
    cases f <;> rfl
  | device text =>
    injection hs with hs
    rw [← hs]
    refine ⟨by rw [latest_snoc]; rfl, by rw [latest_snoc]; exact h.line, ?_, by rw [latest_snoc]; exact h.period⟩
    rw [latest_snoc, latest_snoc, latest_snoc, latest_snoc, latest_snoc]; exact h.flags
  | debounce text =>
    simp only [step] at hs
    have := number32_next hs
    injection this with this
    rw [← this]
    refine ⟨by rw [latest_snoc]; exact h.path, by rw [latest_snoc]; exact h.line, ?_, ?_⟩
    · rw [latest_snoc, latest_snoc, latest_snoc, latest_snoc, latest_snoc]; exact h.flags
    · rw [latest_snoc]
      intro n hr hn
      simp only []
      rw [(reads_value hr (by omega)).1]
  | line text =>
    simp only [step] at hs
    have := number32_next hs
    injection this with this
    rw [← this]
    simp only []
    refine ⟨?_, ?_, ?_, ?_⟩
    · rw [latest_snoc, invert_path]; exact h.path
    · rw [latest_snoc]
      intro low n hr
      rw [invert_line]
      cases hr with
      | plain h1 h2 h3 =>
        rw [if_neg (by rw [← List.head?_eq_getElem?]; simpa using h1), (reads_value h2 (by omega)).1]
      | inverted h2 h3 =>
        rw [if_pos (by simp)]
        simp only [List.drop_succ_cons, List.drop_zero]
        rw [(reads_value h2 (by omega)).1]
    · rw [invert_flags _ _ _ _ _ h.flags, latest_snoc, latest_snoc, latest_snoc, latest_snoc, latest_snoc]
      simp only [saysLow, List.head?_eq_getElem?, saysInput, saysOutput, saysRising, saysFalling, Option.none_or]
      by_cases hh : text[0]? = some 0x2d#8
      · simp [hh]
      · simp [hh]
    · rw [latest_snoc, invert_useconds]; exact h.period
  | place text =>
    simp only [step] at hs
    rcases hp : a.parse text with _ | ⟨path, line, low⟩
    · rw [hp] at hs; cases hs
    · rw [hp] at hs
      injection hs with hs
      rw [← hs]
      refine ⟨?_, ?_, ?_, ?_⟩
      · rw [latest_snoc, saysPath, hp]; cases low <;> rfl
      · rw [latest_snoc, saysLine, hp]; cases low <;> rfl
      · simp only []
        rw [invert_flags _ _ _ _ _ h.flags, latest_snoc, latest_snoc, latest_snoc, latest_snoc, latest_snoc]
        simp only [saysLow, hp, saysInput, saysOutput, saysRising, saysFalling, Option.none_or]
        cases low <;> simp
      · rw [latest_snoc]; cases low <;> exact h.period
  | clear =>
    simp only [step] at hs
    have hk := kept_shut a { s with context := blank }
    have : s'.context = blank := by
      cases hb : (shut a { s with context := blank }).1 with
      | true => rw [hb, if_pos rfl] at hs; injection hs with hs; rw [← hs]; exact hk.1.2.2.2.1
      | false => rw [hb, if_neg (by simp)] at hs; cases hs
    rw [this]
    refine ⟨by rw [latest_snoc]; rfl, by rw [latest_snoc]; rfl, ?_, by rw [latest_snoc]; rfl⟩
    rw [latest_snoc, latest_snoc, latest_snoc, latest_snoc, latest_snoc]; rfl
  | configure =>
    have : s'.context = s.context := by
      simp only [step] at hs
      cases hf : s.fd with
      | some g => rw [hf] at hs; cases hs
      | none =>
        rw [hf] at hs
        simp only [] at hs
        cases hg : (a.open_ s.context s.kernel).1 with
        | none => rw [hg] at hs; cases hs
        | some g => rw [hg] at hs; injection hs with hs; rw [← hs]
    rw [this]
    exact asked_same h rfl rfl rfl rfl rfl rfl rfl rfl
  | watch text =>
    obtain ⟨_, _, _, h4, _⟩ := watch_step a patience text s s' (Or.inl hs)
    rw [h4]
    exact asked_same h rfl rfl rfl rfl rfl rfl rfl rfl
  | first => injection hs with hs; rw [← hs]; exact asked_same h rfl rfl rfl rfl rfl rfl rfl rfl
  | unique => injection hs with hs; rw [← hs]; exact asked_same h rfl rfl rfl rfl rfl rfl rfl rfl
  | command text => injection hs with hs; rw [← hs]; exact asked_same h rfl rfl rfl rfl rfl rfl rfl rfl
  | _ => rw [hkeep rfl]; exact asked_same h rfl rfl rfl rfl rfl rfl rfl rfl

/-- What `-1`, `-U` and `-X` have said. -/
theorem settings_step {patience : Nat} {o : Opt} {s s' : State σ} (hs : step a patience o s = .next s') :
    s'.first = (s.first || decide (o = .first)) ∧ s'.unique = (s.unique || decide (o = .unique)) ∧ s'.command = (saysCommand o).or s.command := by
  have hkeep : isSetting o = false → s'.first = s.first ∧ s'.unique = s.unique ∧ s'.command = s.command := by
    intro ho
    have := keeps_step a patience o s ho
    rw [hs] at this
    exact ⟨this.1.1, this.1.2.1, this.1.2.2.1⟩
  cases o with
  | flag f => injection hs with hs; rw [← hs]; simp [saysCommand]
  | device text => injection hs with hs; rw [← hs]; simp [saysCommand]
  | debounce text => simp only [step] at hs; have := number32_next hs; injection this with this; rw [← this]; simp [saysCommand]
  | line text => simp only [step] at hs; have := number32_next hs; injection this with this; rw [← this]; simp [saysCommand]
  | place text =>
    simp only [step] at hs
    rcases hp : a.parse text with _ | ⟨path, line, low⟩
    · rw [hp] at hs; cases hs
    · rw [hp] at hs; injection hs with hs; rw [← hs]; simp [saysCommand]
  | clear =>
    simp only [step] at hs
    have hk := kept_shut a { s with context := blank }
    cases hb : (shut a { s with context := blank }).1 with
    | true => rw [hb, if_pos rfl] at hs; injection hs with hs; rw [← hs, hk.1.1, hk.1.2.1, hk.1.2.2.1]; simp [saysCommand]
    | false => rw [hb, if_neg (by simp)] at hs; cases hs
  | configure =>
    simp only [step] at hs
    cases hf : s.fd with
    | some g => rw [hf] at hs; cases hs
    | none =>
      rw [hf] at hs
      simp only [] at hs
      cases hg : (a.open_ s.context s.kernel).1 with
      | none => rw [hg] at hs; cases hs
      | some g => rw [hg] at hs; injection hs with hs; rw [← hs]; simp [saysCommand]
  | watch text =>
    obtain ⟨h1, h2, h3, _, _⟩ := watch_step a patience text s s' (Or.inl hs)
    rw [h1, h2, h3]; simp [saysCommand]
  | first => injection hs with hs; rw [← hs]; simp [saysCommand]
  | unique => injection hs with hs; rw [← hs]; simp [saysCommand]
  | command text => injection hs with hs; rw [← hs]; simp [saysCommand]
  | _ => obtain ⟨h1, h2, h3⟩ := hkeep rfl; rw [h1, h2, h3]; simp [saysCommand]

/-- Lines are opened only by `-x`, with the context. -/
theorem opened_step {patience : Nat} {o : Opt} {s s' : State σ} (hl : Leads (step a patience o s) s') :
    ∃ acts, s'.log = s.log ++ acts ∧ ∀ c r, Act.opened c r ∈ acts → o = .configure ∧ c = s.context := by
  have key : ∀ f : Flow σ, Keeps s f → Leads f s' → ∃ acts, s'.log = s.log ++ acts ∧ ∀ c r, Act.opened c r ∈ acts → o = .configure ∧ c = s.context := by
    intro f hk hl
    rcases hl with hl | ⟨c, hl⟩ | hl <;> rw [hl] at hk <;> obtain ⟨_, x, h1, h2⟩ := hk <;> exact ⟨x, h1, fun c r hm => (h2 c r hm).elim⟩
  have quiet : ∀ f : Flow σ, (∃ t, (f = .next t ∨ ∃ c, f = .stop c t) ∧ t.log = s.log) → Leads f s' → ∃ acts, s'.log = s.log ++ acts ∧ ∀ c r, Act.opened c r ∈ acts → o = .configure ∧ c = s.context := by
    rintro f ⟨t, hf, ht⟩ hl
    have : t = s' := by
      rcases hf with rfl | ⟨c, rfl⟩
      · rcases hl with hl | ⟨c, hl⟩ | hl
        · injection hl
        · cases hl
        · cases hl
      · rcases hl with hl | ⟨c, hl⟩ | hl
        · cases hl
        · injection hl
        · cases hl
    exact ⟨[], by rw [← this, ht]; simp, by simp⟩
  have qnum : ∀ (text : List Byte) (rest : BitVec 32 → Flow σ), (∀ u, ∃ t, rest u = .next t ∧ t.log = s.log) → ∃ t, (number32 text s rest = .next t ∨ ∃ c, number32 text s rest = .stop c t) ∧ t.log = s.log := by
    intro text rest hr
    unfold number32 number
    by_cases h1 : (Number.unsigned text).2.1 ≠ []
    · exact ⟨s, Or.inr ⟨1, by rw [if_pos h1]⟩, rfl⟩
    · rw [if_neg h1]
      by_cases h2 : (Number.unsigned text).1 > 4294967295
      · exact ⟨s, Or.inr ⟨1, by simp only [if_pos h2]⟩, rfl⟩
      · obtain ⟨t, h3, h4⟩ := hr (BitVec.ofNat 32 (Number.unsigned text).1)
        exact ⟨t, Or.inl (by simp only [if_neg h2]; exact h3), h4⟩
  cases o with
  | configure =>
    simp only [step] at hl
    cases hf : s.fd with
    | some g => rw [hf] at hl; exact quiet _ ⟨s, Or.inr ⟨2, rfl⟩, rfl⟩ hl
    | none =>
      rw [hf] at hl
      simp only [] at hl
      refine ⟨[.opened s.context (a.open_ s.context s.kernel).1], ?_, fun c r hm => ⟨rfl, ?_⟩⟩
      · cases hg : (a.open_ s.context s.kernel).1 with
        | none =>
          rw [hg] at hl
          rcases hl with hl | ⟨c, hl⟩ | hl
          · cases hl
          · injection hl with _ hl; rw [← hl]
          · cases hl
        | some g =>
          rw [hg] at hl
          rcases hl with hl | ⟨c, hl⟩ | hl
          · injection hl with hl; rw [← hl]
          · cases hl
          · cases hl
      · have := List.mem_singleton.mp hm
        injection this
  | flag f => refine quiet _ ?_ hl; exact ⟨_, Or.inl rfl, rfl⟩
  | device text => refine quiet _ ?_ hl; exact ⟨_, Or.inl rfl, rfl⟩
  | first => refine quiet _ ?_ hl; exact ⟨_, Or.inl rfl, rfl⟩
  | unique => refine quiet _ ?_ hl; exact ⟨_, Or.inl rfl, rfl⟩
  | command text => refine quiet _ ?_ hl; exact ⟨_, Or.inl rfl, rfl⟩
  | debounce text => simp only [step] at hl; refine quiet _ ?_ hl; exact qnum _ _ fun u => ⟨_, rfl, rfl⟩
  | line text => simp only [step] at hl; refine quiet _ ?_ hl; exact qnum _ _ fun u => ⟨_, rfl, rfl⟩
  | place text =>
    refine quiet _ ?_ hl
    simp only [step]
    rcases hp : a.parse text with _ | ⟨path, line, low⟩
    · exact ⟨_, Or.inr ⟨2, rfl⟩, rfl⟩
    · exact ⟨_, Or.inl rfl, rfl⟩
  | watch text =>
    obtain ⟨_, _, _, _, _, x, h1, h2⟩ := watch_step a patience text s s' hl
    exact ⟨x, h1, fun c r hm => (h2 c r hm).elim⟩
  | clear =>
    simp only [step] at hl
    obtain ⟨_, x, h1, h2⟩ := kept_shut a { s with context := blank }
    refine ⟨x, ?_, fun c r hm => (h2 c r hm).elim⟩
    rw [← h1]
    cases hb : (shut a { s with context := blank }).1 with
    | true =>
      rw [hb, if_pos rfl] at hl
      rcases hl with hl | ⟨c, hl⟩ | hl
      · injection hl with hl; rw [← hl]
      · cases hl
      · cases hl
    | false =>
      rw [hb, if_neg (by simp)] at hl
      rcases hl with hl | ⟨c, hl⟩ | hl
      · cases hl
      · injection hl with _ hl; rw [← hl]
      · cases hl
  | _ => exact key _ (keeps_step a patience _ s rfl) hl

end Diminuto.Linetool
