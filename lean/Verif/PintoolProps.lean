import Verif.PintoolLemmas4

/-!
# Properties C141, C142 and C143: the tool that manipulates pins
-/

namespace Diminuto.Pintool

open Diminuto.Number (Reads)

variable {σ : Type} {a : Api σ}

/-! ## C141 -/

/-- C141 (the pin): whatever an option does, it does it to the pin that was selected last, and to the stream that is open for it; without a pin nothing is done but to wait or to become a daemon.  Only for numbers of pins that are numbers and fit into 31 bits: see the
counterexamples. -/
theorem pintool_pin_partial {patience : Nat} {k : σ} {opts : List Opt} {o : Opt} {s s' : State σ} (hr : Reaches a patience k opts s) (hl : Leads (step a patience o s) s') :
    ∃ acts, s'.log = s.log ++ acts ∧
      (∀ text n, selected (opts ++ [o]) = some text → IsPin text n → Concerns n (stream none s.log) acts) ∧
      (selected (opts ++ [o]) = none → ∀ e ∈ acts, (∃ t, e = .slept t) ∨ ∃ ok, e = .daemonized ok) := by
  obtain ⟨acts, h1, h2, _⟩ := step_leads a (reaches_inv a hr) hl
  obtain ⟨p1, p2⟩ := step_pin a (reaches_inv a hr) (reaches_pin a hr) hl
  refine ⟨acts, h1, fun text n ht hn => ?_, fun hn => ?_⟩
  · rw [PinIs, ht] at p1
    rw [← p1 n hn]; exact h2
  · obtain ⟨x, h3, h4⟩ := p2 hn
    rw [h1] at h3
    rw [List.append_cancel_left h3]
    exact h4

/-- C141 (streams): there is never more than one stream, it is not used after it was closed, and none is left open at the end. -/
theorem pintool_streams (patience : Nat) (opts : List Opt) (k : σ) :
    (∀ code s, main a patience opts k = .exit code s → Orderly none s.log ∧ stream none s.log = none) ∧
    (∀ s, main a patience opts k = .busy s → Orderly none s.log) := by
  have h := loop_orderly a patience opts (start k) (inv_start k) trivial
  exact ⟨fun code s e => ⟨(h.1 code s e).1, (h.1 code s e).2.1⟩, fun s e => (h.2 s e).1⟩

/-- C141 (failures): if the exit code is zero nothing has failed; the same holds as long as a monitor goes on.  Except for the edge of both, see the counterexample. -/
theorem pintool_success_partial (patience : Nat) (opts : List Opt) (k : σ) :
    (∀ s, main a patience opts k = .exit 0 s → ∀ e ∈ s.log, Fine e ∨ ∃ p, e = .configured p (.edge 3) false) ∧
    (∀ s, main a patience opts k = .busy s → ∀ e ∈ s.log, Fine e ∨ ∃ p, e = .configured p (.edge 3) false) := by
  have h := loop_orderly a patience opts (start k) (inv_start k) trivial
  exact ⟨fun s e => (h.1 0 s e).2.2 (fun e he => by simp [start] at he) rfl, fun s e => (h.2 s e).2 (fun e he => by simp [start] at he)⟩

/-- C141 (defined): if streams can always be closed, and the times of `-m` are at most 9223372036 microseconds, the behaviour is defined. -/
theorem pintool_defined_partial (patience : Nat) (opts : List Opt) (k : σ) (hc : ∀ h k, (a.close h k).1 = true)
    (hw : ∀ text, Opt.watch (some text) ∈ opts → (Number.signed text).2.1 = [] → (Number.signed text).1 ≤ 9223372036) : main a patience opts k ≠ .undefined := by
  have hfin : ∀ (c : Nat) (s : State σ), finish a c s ≠ .undefined := by
    intro c s h
    rw [finish] at h
    cases hf : s.fp with
    | none => rw [hf] at h; cases h
    | some g => rw [hf] at h; cases h
  have key : ∀ (opts : List Opt) (s : State σ), (∀ text, Opt.watch (some text) ∈ opts → (Number.signed text).2.1 = [] → (Number.signed text).1 ≤ 9223372036) → loop a patience opts s ≠ .undefined := by
    intro opts
    induction opts with
    | nil => intro s _; exact hfin 0 s
    | cons o r ih =>
      intro s hw
      rw [loop]
      have hd := defined_step a patience o s hc fun text e => hw text (by rw [e]; exact List.mem_cons_self)
      cases hs : step a patience o s with
      | undefined => rw [hs] at hd; exact hd.elim
      | next t => exact ih t fun text he => hw text (List.mem_cons_of_mem _ he)
      | stop c t => exact hfin c t
      | busy t => intro h; cases h
  exact key opts (start k) hw

/-- C141 (`-D`): the path is passed on, and what comes after it goes on with it. -/
theorem pintool_root (patience : Nat) (text : List Byte) (after : List Opt) (k : σ) : main a patience (.root text :: after) k = main a patience after (a.root text k) := rfl

/-- C141 (options that only print): `-d`, `-?` and whatever `getopt(3)` refuses make no difference wherever they are. -/
theorem pintool_ignored (o : Opt) (ho : o = .debug ∨ o = .menu) (patience : Nat) (before after : List Opt) (k : σ) : main a patience (before ++ o :: after) k = main a patience (before ++ after) k := by
  have key : ∀ (x : List Opt) (s : State σ), loop a patience (x ++ o :: after) s = loop a patience (x ++ after) s := by
    intro x
    induction x with
    | nil => intro s; rcases ho with rfl | rfl <;> rfl
    | cons e x ih =>
      intro s
      rw [List.cons_append, List.cons_append, loop, loop]
      cases step a patience e s with
      | next t => exact ih t
      | _ => rfl
  exact key _ _

/-! ## C142 -/

/-- What is observed at the end: the exit code, or that a monitor goes on; what has been printed; and what has been run. -/
def observed {σ : Type} : Outcome σ → Option (Option Nat × List Bool × List (List Byte))
  | .exit c s => some (some c, printed s.log, ran s.log)
  | .busy s => some (none, printed s.log, ran s.log)
  | .undefined => none

/-- The values of the pins at the end. -/
def values : Outcome Gpio → Int → Option Bool
  | .exit _ s, p => some (s.kernel.value p)
  | .busy s, p => some (s.kernel.value p)
  | .undefined, _ => none

/-- C142 (values): on a machine on which everything works, options that stand for commands print and set exactly what the commands mean, if no pin is both read and written before another is selected. -/
theorem pintool_values_partial (patience : Nat) {opts : List Opt} {cmds : List Command} (hl : Line opts cmds) (hs : Steady false none cmds) (g : Gpio) :
    ∃ s, main gpio patience opts g = .exit 0 s ∧ printed s.log = (meaning cmds ⟨-1, g.value, false, []⟩).out ∧ s.kernel.value = (meaning cmds ⟨-1, g.value, false, []⟩).value := by
  obtain ⟨s, h1, h2, h3⟩ := loop_gpio patience hl false none (start g) ⟨-1, g.value, false, []⟩ ⟨fun h => (by cases h), rfl, rfl, rfl, rfl⟩ hs
  exact ⟨s, h1, h3, h2⟩

theorem ticks_eq {n : Nat} (hn : n < 18446744074) : ticks n = BitVec.ofNat 64 (n * 1000) := by
  apply BitVec.eq_of_toNat_eq
  rw [ticks, BitVec.toNat_udiv, BitVec.toNat_mul, BitVec.toNat_ofNat, BitVec.toNat_ofNat, BitVec.toNat_ofNat, BitVec.toNat_ofNat,
    show (1000000000 % 2 ^ 64 : Nat) = 1000000000 from rfl, show (1000000 % 2 ^ 64 : Nat) = 1000000 from rfl,
    Nat.mod_eq_of_lt (show n < 2 ^ 64 by omega), Nat.mod_eq_of_lt (show n * 1000000000 < 2 ^ 64 by omega), Nat.mod_eq_of_lt (show n * 1000 < 2 ^ 64 by omega)]
  omega

/-- C142 (times): `-u` delays for the number of nanoseconds, if their product with the frequency fits into 64 bits. -/
theorem pintool_delay_partial (patience : Nat) {text : List Byte} {n : Nat} (hr : Reads text false n []) (hn : n < 18446744074) (s : State σ) :
    step a patience (.delay text) s = .next { s with kernel := a.delay (BitVec.ofNat 64 (n * 1000)) s.kernel, log := s.log ++ [.slept (BitVec.ofNat 64 (n * 1000))] } := by
  rw [step, number_reads hr (by omega), ticks_eq hn]

/-- C142 (times): the time of `-m` is in nanoseconds, too, and those that are not positive are passed on. -/
theorem pintool_timeout_partial (v : Int) (h : v ≤ 9223372036) : timeout v = some (if v > 0 then v * 1000 else v) := by
  unfold timeout
  by_cases h0 : v > 0
  · rw [if_pos h0, if_pos (by omega), if_pos h0]
    congr 1; omega
  · rw [if_neg h0, if_neg h0]

/-! ## C143 -/

theorem acquire_leads (output : Bool) (s s' : State σ) (rest : Nat → State σ → Flow σ) (hl : Leads (acquire a output s rest) s') :
    (s'.log = s.log ∧ ∃ c, acquire a output s rest = .stop c s') ∨
    ∃ h t acts, acquire a output s rest = rest h t ∧ t.log = s.log ++ acts ∧ (acts = [] ∨ acts = [.opened s.pin output h]) ∧ t.first = s.first ∧ t.unique = s.unique ∧ t.command = s.command ∧ t.pin = s.pin ∧ t.sticks = s.sticks := by
  cases hf : s.fp with
  | some h => exact Or.inr ⟨h, s, [], by simp only [acquire, hf], by simp, Or.inl rfl, rfl, rfl, rfl, rfl, rfl⟩
  | none =>
    by_cases hp : s.pin < 0
    · have e : acquire a output s rest = .stop 1 s := by simp only [acquire, hf, if_pos hp]
      rw [e] at hl
      have := leads_stop hl
      subst this
      exact Or.inl ⟨rfl, 1, e⟩
    · rcases ho : a.open_ s.pin output s.kernel with ⟨_ | h, k⟩
      · have e : acquire a output s rest = .stop 2 { s with kernel := k } := by simp only [acquire, hf, if_neg hp, ho]
        rw [e] at hl
        have := leads_stop hl
        subst this
        exact Or.inl ⟨rfl, 2, by rw [e]⟩
      · refine Or.inr ⟨h, { s with kernel := k, fp := some h, log := s.log ++ [.opened s.pin output h] }, [.opened s.pin output h], ?_, rfl, Or.inr rfl, rfl, rfl, rfl, rfl, rfl⟩
        simp only [acquire, hf, if_neg hp, ho]

/-- C143 (`-b`): what is printed is the first level, and then the levels that have settled, whenever they change; it goes on until something fails, with a sample for each turn. -/
theorem pintool_debounces (patience : Nat) (text : List Byte) (s s' : State σ) (hl : Leads (step a patience (.poll text) s) s') :
    ∃ acts, s'.log = s.log ++ acts ∧ ran acts = [] ∧ step a patience (.poll text) s ≠ .next s' ∧
      (match samples acts with
        | [] => printed acts = []
        | v :: r => printed acts = (reported true none (Cue.level v :: debounced v [] r)).map (·.1)) ∧
      (step a patience (.poll text) s = .busy s' → (samples acts).length = patience + 1) ∧
      (∀ n, Reads text false n [] → n < 18446744074 → Paced (BitVec.ofNat 64 (n * 1000)) (later acts)) := by
  rw [step, number] at hl ⊢
  by_cases hn : (Number.unsigned text).2.1 ≠ []
  · rw [if_pos hn] at hl ⊢
    have := leads_stop hl
    subst this
    exact ⟨[], by simp, rfl, fun h => (by cases h), rfl, fun h => (by cases h), fun _ _ _ => trivial⟩
  · rw [if_neg hn] at hl ⊢
    rcases acquire_leads false s s' _ hl with ⟨e, c, e'⟩ | ⟨h, t, pre, e, e1, e2, _⟩
    · rw [e']
      exact ⟨[], by simp [e], rfl, fun h => (by cases h), rfl, fun h => (by cases h), fun _ _ _ => trivial⟩
    · rw [e] at hl ⊢
      obtain ⟨acts, g1, g2, g3, g4, g5, g6⟩ := poll_reports a h _ patience t s' hl
      have h1 : printed pre = [] := by rcases e2 with rfl | rfl <;> rfl
      have h2 : ran pre = [] := by rcases e2 with rfl | rfl <;> rfl
      have h3 : samples pre = [] := by rcases e2 with rfl | rfl <;> rfl
      refine ⟨pre ++ acts, by rw [g1, e1, List.append_assoc], by rw [ran_append, h2, g2]; rfl, g3, ?_, fun hb => (by rw [samples_append, h3]; exact g5 hb), fun n hr hn => ?_⟩
      · rw [samples_append, printed_append, h1, h3, List.nil_append, List.nil_append]
        exact g4
      · have h4 : later (pre ++ acts) = later acts := by rcases e2 with rfl | rfl <;> rfl
        rw [h4, ← ticks_eq hn, ← (Number.number_unsigned_reads hr).1 (by omega) rfl]
        exact g6

/-- The number of nanoseconds to wait for an event: from the argument of `-m`, where a number that is not positive has a meaning of its own, or what is kept for `-M`. -/
def waiting (time : Option (List Byte)) (kept : Int) : Int :=
  match time with
  | none => kept
  | some text => if (Number.signed text).1 > 0 then (Number.signed text).1 * 1000 else (Number.signed text).1

/-- C143 (`-m` and `-M`): with `-1` the first level is printed; after that every level, or with `-U` every level that differs from the one before, is printed, or a command is run with the pin, the level and the one before; it goes on until
something fails, with a sample for each turn.  For commands that fit into the buffer: see the counterexample. -/
theorem pintool_monitors_partial (patience : Nat) (time : Option (List Byte)) (s s' : State σ) (hl : Leads (step a patience (.watch time) s) s') :
    ∃ acts, s'.log = s.log ++ acts ∧ step a patience (.watch time) s ≠ .next s' ∧
      (s.command = none → printed acts = initial s.first ((samples acts).map Cue.level) ++ (following s.first s.unique ((samples acts).map Cue.level)).map (·.1) ∧ ran acts = []) ∧
      (∀ text, s.command = some text → (∀ x, (invocation text s.pin x).length ≤ 1023) →
        printed acts = initial s.first ((samples acts).map Cue.level) ∧ ran acts = (following s.first s.unique ((samples acts).map Cue.level)).map (invocation text s.pin)) ∧
      (step a patience (.watch time) s = .busy s' → (samples acts).length = patience + if s.first then 1 else 0) ∧
      Awaits (waiting time s.sticks) (if s.first then later acts else acts) := by
  have key : ∀ s0 : State σ, s0.log = s.log → s0.first = s.first → s0.unique = s.unique → s0.command = s.command → s0.pin = s.pin → s0.sticks = waiting time s.sticks → Leads (acquire a false s0 (watch a patience)) s' →
      ∃ acts, s'.log = s.log ++ acts ∧ acquire a false s0 (watch a patience) ≠ .next s' ∧
      (s.command = none → printed acts = initial s.first ((samples acts).map Cue.level) ++ (following s.first s.unique ((samples acts).map Cue.level)).map (·.1) ∧ ran acts = []) ∧
      (∀ text, s.command = some text → (∀ x, (invocation text s.pin x).length ≤ 1023) →
        printed acts = initial s.first ((samples acts).map Cue.level) ∧ ran acts = (following s.first s.unique ((samples acts).map Cue.level)).map (invocation text s.pin)) ∧
      (acquire a false s0 (watch a patience) = .busy s' → (samples acts).length = patience + if s.first then 1 else 0) ∧
      Awaits (waiting time s.sticks) (if s.first then later acts else acts) := by
    intro s0 i1 i2 i3 i4 i5 i6 hl
    rcases acquire_leads false s0 s' _ hl with ⟨e, c, e'⟩ | ⟨h, t, pre, e, e1, e2, j1, j2, j3, j4, j5⟩
    · rw [e']
      refine ⟨[], by simp [e, i1], fun h => (by cases h), fun _ => ?_, fun _ _ _ => ?_, fun h => (by cases h), by cases s.first <;> trivial⟩
      · cases s.first <;> exact ⟨rfl, rfl⟩
      · cases s.first <;> exact ⟨rfl, rfl⟩
    · rw [e] at hl ⊢
      obtain ⟨acts, g1, g2, g3, g4, g5⟩ := watch_reports a patience h t s' hl
      simp only [] at g3
      rw [j1, j2, j3, j4, i2, i3, i4, i5] at g3
      rw [j1, i2] at g4 g5
      rw [j5, i6] at g5
      have h1 : printed pre = [] := by rcases e2 with rfl | rfl <;> rfl
      have h2 : ran pre = [] := by rcases e2 with rfl | rfl <;> rfl
      have h3 : samples pre = [] := by rcases e2 with rfl | rfl <;> rfl
      refine ⟨pre ++ acts, by rw [g1, e1, i1, List.append_assoc], g2, ?_, ?_, fun hb => (by rw [samples_append, h3]; exact g4 hb), ?_⟩
      · rw [samples_append, printed_append, ran_append, h1, h2, h3, List.nil_append, List.nil_append, List.nil_append]
        exact g3.1
      · intro text ht hfit
        rw [samples_append, printed_append, ran_append, h1, h2, h3, List.nil_append, List.nil_append, List.nil_append]
        obtain ⟨q1, q2⟩ := g3.2 text ht
        refine ⟨q1, q2.trans ?_⟩
        apply List.map_congr_left
        intro x _
        exact commandLine_fits text s.pin x (hfit x)
      · have h4 : later (pre ++ acts) = later acts := by rcases e2 with rfl | rfl <;> rfl
        have h5 : Awaits (waiting time s.sticks) (pre ++ acts) ↔ Awaits (waiting time s.sticks) acts := by rcases e2 with rfl | rfl <;> exact Iff.rfl
        cases hf : s.first with
        | true => rw [hf] at g5; rw [if_pos rfl] at g5 ⊢; rw [h4]; exact g5
        | false => rw [hf] at g5; rw [if_neg (by simp)] at g5 ⊢; exact h5.2 g5
  cases time with
  | none => exact key s rfl rfl rfl rfl rfl rfl hl
  | some text =>
    simp only [step] at hl ⊢
    by_cases hn : (Number.signed text).2.1 ≠ []
    · rw [if_pos hn] at hl ⊢
      have := leads_stop hl
      subst this
      refine ⟨[], by simp, fun h => (by cases h), fun _ => ?_, fun _ _ _ => ?_, fun h => (by cases h), by cases s.first <;> trivial⟩
      · cases s.first <;> exact ⟨rfl, rfl⟩
      · cases s.first <;> exact ⟨rfl, rfl⟩
    · rw [if_neg hn] at hl ⊢
      cases ht : timeout (Number.signed text).1 with
      | none =>
        rw [ht] at hl
        rcases hl with h | ⟨_, h⟩ | h <;> cases h
      | some v =>
        rw [ht] at hl
        refine key { s with sticks := v } rfl rfl rfl rfl rfl ?_ hl
        simp only [waiting]
        unfold timeout at ht
        by_cases h0 : (Number.signed text).1 > 0
        · rw [if_pos h0] at ht ⊢
          by_cases h1 : (Number.signed text).1 * 1000000000 < 9223372036854775808
          · rw [if_pos h1] at ht; injection ht with ht; omega
          · rw [if_neg h1] at ht; cases ht
        · rw [if_neg h0] at ht ⊢; injection ht with ht; exact ht.symm

/-- The argument of the last `-X`. -/
def given : List Opt → Option (List Byte)
  | [] => none
  | .command text :: r => (given r).or (some text)
  | _ :: r => given r

theorem given_append (x : List Opt) (o : Opt) : given (x ++ [o]) = (match o with | .command text => some text | _ => given x) := by
  induction x with
  | nil => cases o <;> rfl
  | cons e x ih => cases o <;> cases e <;> simp only [List.cons_append, given, ih] <;> rfl

/-- What the options are kept in is not changed by others. -/
theorem kept (patience : Nat) (o : Opt) (s s' : State σ) (h : step a patience o s = .next s') :
    s'.sticks = s.sticks ∧ s'.first = (s.first || decide (o = .first)) ∧ s'.unique = (s.unique || decide (o = .unique)) ∧ s'.command = (match o with | .command text => some text | _ => s.command) := by
  have hacq : ∀ (output : Bool) (rest : Nat → State σ → Flow σ), acquire a output s rest = .next s' → ∃ h t, rest h t = .next s' ∧ t.sticks = s.sticks ∧ t.first = s.first ∧ t.unique = s.unique ∧ t.command = s.command := by
    intro output rest h
    rcases acquire_leads output s s' rest (Or.inl h) with ⟨_, c, e⟩ | ⟨g, t, _, e, _, _, e1, e2, e3, _, e5⟩
    · rw [h] at e; cases e
    · exact ⟨g, t, by rw [← e, h], e5, e1, e2, e3⟩
  have hst : ∀ (g : Nat) (b : Bool) (t : State σ), store a g b t = .next s' → s'.sticks = t.sticks ∧ s'.first = t.first ∧ s'.unique = t.unique ∧ s'.command = t.command := by
    intro g b t h
    unfold store at h
    simp only [] at h
    cases hg : (a.put g b t.kernel).1 with
    | true => rw [hg, if_pos rfl] at h; injection h with h; subst h; exact ⟨rfl, rfl, rfl, rfl⟩
    | false => rw [hg, if_neg (by simp)] at h; cases h
  cases o with
  | first => injection h with h; subst h; simp
  | unique => injection h with h; subst h; simp
  | command text => rw [step] at h; injection h with h; subst h; simp
  | root text => injection h with h; subst h; simp
  | debug => injection h with h; subst h; simp
  | menu => injection h with h; subst h; simp
  | other => cases h
  | daemon =>
    simp only [step] at h
    cases hg : (a.daemon s.kernel).1 with
    | true => rw [hg, if_pos rfl] at h; injection h with h; subst h; simp
    | false => rw [hg, if_neg (by simp)] at h; cases h
  | configure c =>
    simp only [step, configure] at h
    by_cases hp : s.pin < 0
    · rw [if_pos hp] at h; cases h
    · rw [if_neg hp] at h
      cases hg : (a.configure c s.pin s.kernel).1 with
      | true => rw [hg, if_pos rfl] at h; injection h with h; subst h; simp
      | false =>
        rw [hg, if_neg (by simp)] at h
        cases c with
        | edge e =>
          simp only [] at h
          by_cases he : e = 3
          · rw [if_pos he] at h; injection h with h; subst h; simp
          · rw [if_neg he] at h; cases h
        | _ => cases h
  | poll text =>
    obtain ⟨_, _, _, hn, _⟩ := pintool_debounces patience text s s' (Or.inl h)
    exact absurd h hn
  | watch t =>
    obtain ⟨_, _, hn, _⟩ := pintool_monitors_partial patience t s s' (Or.inl h)
    exact absurd h hn
  | write b =>
    obtain ⟨g, t, e, e1, e2, e3, e4⟩ := hacq _ _ h
    obtain ⟨f1, f2, f3, f4⟩ := hst g b t e
    simp [f1, f2, f3, f4, e1, e2, e3, e4]
  | writeText text =>
    rw [step, number] at h
    by_cases hn : (Number.unsigned text).2.1 ≠ []
    · rw [if_pos hn] at h; cases h
    · rw [if_neg hn] at h
      obtain ⟨g, t, e, e1, e2, e3, e4⟩ := hacq _ _ h
      obtain ⟨f1, f2, f3, f4⟩ := hst g _ t e
      simp [f1, f2, f3, f4, e1, e2, e3, e4]
  | read =>
    rw [step] at h
    obtain ⟨g, t, e, e1, e2, e3, e4⟩ := hacq _ _ h
    rcases sample_cases a g t (fun b s => .next (print b s)) with ⟨v, k, _, e'⟩ | ⟨v, k, _, e'⟩
    · rw [e'] at e; cases e
    · rw [e'] at e; injection e with e; subst e
      simp [print, e1, e2, e3, e4]
  | test nonzero =>
    simp only [step] at h
    by_cases hq : s.state = nonzero
    · rw [if_pos hq] at h; injection h with h; subst h; simp
    · rw [if_neg hq] at h; cases h
  | delay text =>
    simp only [step, number] at h
    by_cases hn : (Number.unsigned text).2.1 ≠ []
    · rw [if_pos hn] at h; cases h
    · rw [if_neg hn] at h; injection h with h; subst h; simp
  | pin text =>
    rw [step, number] at h
    by_cases hn : (Number.unsigned text).2.1 ≠ []
    · rw [if_pos hn] at h; cases h
    · rw [if_neg hn] at h
      unfold select at h
      simp only [] at h
      by_cases h2 : (BitVec.ofNat 32 (Number.unsigned text).1).toInt < 0
      · rw [if_pos h2] at h; cases h
      · rw [if_neg h2] at h
        cases hf : s.fp with
        | none => rw [hf] at h; injection h with h; subst h; simp
        | some g =>
          rw [hf] at h; simp only [] at h
          cases hg : (a.close g s.kernel).1 with
          | false => rw [hg, if_neg (by simp)] at h; cases h
          | true => rw [hg, if_pos rfl] at h; injection h with h; subst h; simp

/-- C143 (options): a monitor finds what `-1`, `-U` and `-X` before it have asked for, and the time of `-M` has no end. -/
theorem pintool_settings {patience : Nat} {k : σ} {opts : List Opt} {s : State σ} (h : Reaches a patience k opts s) :
    s.first = decide (Opt.first ∈ opts) ∧ s.unique = decide (Opt.unique ∈ opts) ∧ s.command = given opts ∧ s.sticks < 0 := by
  have hfin : s.first = decide (Opt.first ∈ opts) ∧ s.unique = decide (Opt.unique ∈ opts) ∧ s.command = given opts ∧ s.sticks = -2 := by
    induction h with
    | start => exact ⟨rfl, rfl, rfl, rfl⟩
    | @step opts o s s' hr hs ih =>
      obtain ⟨i1, i2, i3, i4⟩ := ih
      obtain ⟨h1, h2, h3, h4⟩ := kept patience o s s' hs
      refine ⟨?_, ?_, ?_, by rw [h1, i4]⟩
      · rw [h2, i1]; simp [List.mem_append, eq_comm]
      · rw [h3, i2]; simp [List.mem_append, eq_comm]
      · rw [h4, given_append, i3]
        cases o <;> rfl
  obtain ⟨h1, h2, h3, h4⟩ := hfin
  exact ⟨h1, h2, h3, by rw [h4]; decide⟩

/-! ## Examples -/

/-- A machine with low pins. -/
def low : Gpio := ⟨fun _ => false, [], 0⟩

theorem isPin {text : List Byte} {n : Nat} (h : Number.scan text = some (false, n, [])) (hn : n < 2 ^ 31) : IsPin text n := ⟨(Number.scan_iff _ _ _ _).1 h, hn⟩

/-- `-p 3 -x -o -s -w 0 -w 7 -p 3 -r -t -p 4 -h -r -f -r`. -/
def session : List Opt :=
  [.pin [51], .configure .export, .configure (.direction true), .write true, .writeText [48], .writeText [55], .pin [51], .read, .test true, .pin [52], .configure (.initialize true), .read, .test false, .read]

/-- What it stands for. -/
def sessionCommands : List Command :=
  [.select 3, .configure, .configure, .write true, .write false, .write true, .select 3, .read, .test true, .select 4, .initialize true, .read, .test false, .read]

theorem session_line : Line session sessionCommands :=
  .cons (isPin (by decide) (by decide)) (.cons trivial (.cons trivial (.cons rfl (.cons ⟨0, (Number.scan_iff _ _ _ _).1 (by decide), by decide, rfl⟩ (.cons ⟨7, (Number.scan_iff _ _ _ _).1 (by decide), by decide, rfl⟩
    (.cons (isPin (by decide) (by decide)) (.cons trivial (.cons rfl (.cons (isPin (by decide) (by decide)) (.cons rfl (.cons trivial (.cons rfl (.cons trivial .nil)))))))))))))

example : ∃ s, main gpio 0 session low = .exit 0 s ∧ printed s.log = [true, true] ∧ s.kernel.value 3 = true ∧ s.kernel.value 4 = true ∧ s.kernel.value 5 = false := by
  obtain ⟨s, h1, h2, h3⟩ := pintool_values_partial 0 session_line (by simp [sessionCommands, Steady]) low
  exact ⟨s, h1, h2, by rw [h3]; rfl, by rw [h3]; rfl, by rw [h3]; rfl⟩

example : Reaches gpio 0 low [.pin [51], .write true] { (start low) with pin := 3, fp := some 0, state := true, kernel := ⟨fun q => if q = 3 then true else false, [(0, 3, true)], 1⟩, log := [.opened 3 true 0, .put 0 true true] } :=
  .step (opts := [.pin [51]]) (s := { (start low) with pin := 3 }) (.step (opts := []) .start rfl) rfl

example : IsPin [51] 3 ∧ selected ([.pin [51], .write true] ++ [.read]) = some [51] := ⟨isPin (by decide) (by decide), rfl⟩

/-- Samples one after the other, and a failure at the end. -/
def tape : Api (List Int) where
  configure _ _ k := (true, k)
  open_ _ _ k := (some 0, k)
  put _ _ k := (true, k)
  get _ k := (k.headD (-1), k.tail)
  close _ k := (true, k)
  wait _ _ k := (some true, k)
  delay _ k := k
  system _ k := (true, k)
  daemon k := (true, k)
  root _ k := k

example : observed (main tape 20 [.pin [51], .poll [49]] [0, 1, 1, 0, 1, 1, 1, 0, 1, 0, 0, 0, 0]) = some (some 2, [false, true, false], []) := by decide +kernel

example : (reported true none (Cue.level 0 :: debounced 0 [] [1, 1, 0, 1, 1, 1, 0, 1, 0, 0, 0, 0])).map (·.1) = [false, true, false] := by decide +kernel

example : observed (main tape 4 [.pin [51], .unique, .first, .watch none] [0, 0, 1, 1, 0]) = some (none, [false, true, false], []) := by decide +kernel

example : observed (main tape 3 [.pin [51], .unique, .command [97], .watch (some [53])] [0, 0, 1]) = some (none, [], [[97, 32, 51, 32, 48, 32, 45, 49], [97, 32, 51, 32, 49, 32, 48]]) := by decide +kernel

example : invocation [97] 3 (true, some false) = [97, 32, 51, 32, 49, 32, 48] ∧ (invocation [97] 3 (true, none)).length ≤ 1023 := by decide +kernel

/-! ## Counterexamples -/

/-- C141 does not hold for numbers of pins that do not fit into an `int`: `-p 4294967300 -s` sets pin 4, and `-p ''` selects pin 0. -/
theorem pintool_pin_counterexample :
    observed (main gpio 0 [.pin [52, 50, 57, 52, 57, 54, 55, 51, 48, 48], .write true] low) = some (some 0, [], []) ∧
    values (main gpio 0 [.pin [52, 50, 57, 52, 57, 54, 55, 51, 48, 48], .write true] low) 4 = some true ∧
    values (main gpio 0 [.pin [], .write true] low) 0 = some true := by decide +kernel

/-- C141 does not hold for the edge of both: `-p 3 -B` succeeds although the edge could not be set, while `-p 3 -R` is an error. -/
theorem pintool_edge_counterexample :
    observed (main { tape with configure := fun _ _ k => (false, k) } 0 [.pin [51], .configure (.edge 3)] []) = some (some 0, [], []) ∧
    observed (main { tape with configure := fun _ _ k => (false, k) } 0 [.pin [51], .configure (.edge 1)] []) = some (some 1, [], []) := by decide +kernel

/-- C141 does not hold if a stream cannot be closed: `-p 3 -r -p 4` closes it twice, which is not defined.  Neither is the product for the time of `-m 9223372037`. -/
theorem pintool_defined_counterexample :
    observed (main { tape with close := fun _ k => (false, k) } 0 [.pin [51], .read, .pin [52]] [1]) = none ∧
    observed (main tape 1 [.pin [51], .watch (some [57, 50, 50, 51, 51, 55, 50, 48, 51, 55])] [1]) = none := by decide +kernel

/-- C142 does not hold if a pin is both read and written: `-p 3 -s -r` fails and prints nothing, and so does `-p 3 -r -s`, which does not set the pin; a stream is open for one of the two. -/
theorem pintool_values_counterexample :
    observed (main gpio 0 [.pin [51], .write true, .read] low) = some (some 2, [], []) ∧
    observed (main gpio 0 [.pin [51], .read, .write true] low) = some (some 2, [false], []) ∧
    values (main gpio 0 [.pin [51], .read, .write true] low) 3 = some false := by decide +kernel

/-- C142 does not hold for long delays: `-u 18446744074`, which is more than five hours, is one of 290 nanoseconds. -/
theorem pintool_delay_counterexample (s : State σ) : step a 0 (.delay [49, 56, 52, 52, 54, 55, 52, 52, 48, 55, 52]) s = .next { s with kernel := a.delay 290#64 s.kernel, log := s.log ++ [.slept 290#64] } := by
  have hr : Reads [49, 56, 52, 52, 54, 55, 52, 52, 48, 55, 52] false 18446744074 [] := (Number.scan_iff _ _ _ _).1 (by decide)
  rw [step, number_reads hr (by decide), show ticks 18446744074 = 290#64 by decide]

/-- C143 does not hold for a command that does not fit into the buffer: it is run without its arguments, or whatever is left of it. -/
theorem pintool_command_counterexample :
    observed (main tape 1 [.pin [51], .command (List.replicate 1025 97), .watch none] [1]) = some (none, [], [List.replicate 1023 97]) := by decide +kernel

end Diminuto.Pintool
