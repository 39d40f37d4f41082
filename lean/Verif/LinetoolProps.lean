import Verif.LinetoolLemmas5

/-!
# Properties C144, C145 and C146: the tool that manipulates lines
-/

namespace Diminuto.Linetool

open Diminuto.Number (Reads)
open Diminuto.Pintool (reported debounced)

variable {σ : Type} {a : Api σ}

/-! ## C144 -/

/-- C144 (lines): there is never more than one line open, only its descriptor is used, and at the end it has been closed, or closing it failed. -/
theorem linetool_lines (patience : Nat) (opts : List Opt) (k : σ) :
    (∀ code s, main a patience opts k = .exit code s → Orderly none s.log ∧ (held none s.log = none ∨ ∃ x h, s.log = x ++ [.closed h false])) ∧
    (∀ s, main a patience opts k = .busy s → Orderly none s.log) := by
  have h := loop_orderly a patience opts (start k) (inv_start k) trivial
  exact ⟨fun code s e => ⟨(h.1 code s e).1, (h.1 code s e).2.1⟩, fun s e => (h.2 s e).1⟩

/-- C144 (failures): if the exit code is zero nothing has failed but perhaps to close the line at the end, see the counterexample; nothing has failed as long as a monitor goes on. -/
theorem linetool_success_partial (patience : Nat) (opts : List Opt) (k : σ) :
    (∀ s, main a patience opts k = .exit 0 s → ∃ x y, s.log = x ++ y ∧ (∀ e ∈ x, Fine e) ∧ (y = [] ∨ ∃ h ok, y = [.closed h ok])) ∧
    (∀ s, main a patience opts k = .busy s → ∀ e ∈ s.log, Fine e) := by
  have h := loop_orderly a patience opts (start k) (inv_start k) trivial
  exact ⟨fun s e => (h.1 0 s e).2.2 rfl (fun e he => by simp [start] at he), fun s e => (h.2 s e).2 (fun e he => by simp [start] at he)⟩

/-- C144 (failures): an option that is not known ends the tool with one, whatever comes after it, unless the reader has gone before. -/
theorem linetool_unknown {patience : Nat} {k : σ} {opts : List Opt} {s : State σ} (hr : Reaches a patience k opts s) (hc : s.caught = false) (rest : List Opt) :
    ∃ s', main a patience (opts ++ .other :: rest) k = .exit 1 s' ∧ (s'.log = s.log ∨ ∃ h ok, s'.log = s.log ++ [.closed h ok]) := by
  have key : ∀ {opts : List Opt} {s : State σ}, Reaches a patience k opts s → ∀ rest, main a patience (opts ++ rest) k = loop a patience rest s := by
    intro opts s h
    induction h with
    | start => intro rest; rfl
    | @step opts o s s' _ hs hst ih =>
      intro rest
      rw [List.append_assoc, ih ([o] ++ rest), List.singleton_append]
      simp only [loop, hs, Bool.false_eq_true, if_false, hst]
  rw [key hr]
  simp only [loop, hc, Bool.false_eq_true, if_false, step, finish]
  refine ⟨_, rfl, ?_⟩
  unfold shut
  cases s.fd with
  | none => exact Or.inl rfl
  | some h => exact Or.inr ⟨h, _, rfl⟩

/-- C144 (the context): it is what the options so far have asked for, each setting being that of the last option with a say in it. -/
theorem linetool_context {patience : Nat} {k : σ} {opts : List Opt} {s : State σ} (hr : Reaches a patience k opts s) :
    Asked a.parse opts s.context ∧ s.first = decide (Opt.first ∈ opts) ∧ s.unique = decide (Opt.unique ∈ opts) ∧ s.command = latest saysCommand opts := by
  induction hr with
  | start => exact ⟨⟨rfl, rfl, rfl, rfl⟩, rfl, rfl, rfl⟩
  | @step opts o s s' _ _ hs ih =>
    obtain ⟨h1, h2, h3, h4⟩ := ih
    obtain ⟨g2, g3, g4⟩ := settings_step a hs
    refine ⟨asked_step a h1 hs, ?_, ?_, ?_⟩
    · rw [g2, h2]; simp [List.mem_append, eq_comm]
    · rw [g3, h3]; simp [List.mem_append, eq_comm]
    · rw [g4, h4, latest_snoc]

/-- C144 (opening): a line is only opened by `-x`, and with the settings that have been asked for. -/
theorem linetool_opens {patience : Nat} {k : σ} {opts : List Opt} {o : Opt} {s s' : State σ} (hr : Reaches a patience k opts s) (hl : Leads (step a patience o s) s') :
    ∃ acts, s'.log = s.log ++ acts ∧ ∀ c r, Act.opened c r ∈ acts → o = .configure ∧ Asked a.parse opts c := by
  obtain ⟨acts, h1, h2⟩ := opened_step a hl
  refine ⟨acts, h1, fun c r hm => ?_⟩
  obtain ⟨q1, q2⟩ := h2 c r hm
  exact ⟨q1, by rw [q2]; exact (linetool_context hr).1⟩

/-- C144 (defined): if no line is opened without a device, and the times that are asked for can be counted in nanoseconds in 63 bits, the behaviour is defined. -/
theorem linetool_defined_partial (patience : Nat) (opts : List Opt) (k : σ) (ho : ∀ c k, c.path = none → (a.open_ c k).1 = none) (hb : ∀ o ∈ opts, Bounded o) : main a patience opts k ≠ .undefined :=
  loop_defined a ho patience opts (start k) hb (fun h => absurd rfl h)

/-! ## C145 -/

/-- C145 (values): on a machine on which everything works, options that stand for commands that can be followed print and set exactly what the commands mean. -/
theorem linetool_values_partial {parse : List Byte → Option (List Byte × BitVec 32 × Bool)} (patience : Nat) {opts : List Opt} {cmds : List Command} (hl : Script parse opts cmds) (g : Gpio)
    (hs : Steady cmds ⟨.blank, none, g.level, false, []⟩) :
    ∃ s, main (gpio parse) patience opts g = .exit 0 s ∧ s.kernel.level = (meaning cmds ⟨.blank, none, g.level, false, []⟩).level ∧ printed s.log = (meaning cmds ⟨.blank, none, g.level, false, []⟩).out :=
  loop_gpio parse patience hl (start g) ⟨.blank, none, g.level, false, []⟩ ⟨rfl, rfl, rfl, rfl, rfl, rfl, rfl, rfl, rfl⟩ hs

/-- C145 (times): `-u` delays for the number of nanoseconds, if it fits into 63 bits. -/
theorem linetool_delay_partial (patience : Nat) {text : List Byte} {n : Nat} (hr : Reads text false n []) (hn : n ≤ 9223372036854775) (s : State σ) :
    step a patience (.delay text) s = .next { s with kernel := a.delay (BitVec.ofNat 64 (n * 1000)) s.kernel, log := s.log ++ [.slept (BitVec.ofNat 64 (n * 1000))] } := by
  rw [step, number_reads hr (by omega), ticks_eq hn]

/-! ## C146 -/

/-- C146 (`-b`): what is printed, at once, is the first level, and then the levels that have settled, whenever they change; there is a delay before each sample but the first. -/
theorem linetool_debounces (patience : Nat) (text : List Byte) (s s' : State σ) (hc : s.caught = false) (hl : Leads (step a patience (.poll text) s) s') :
    ∃ acts, s'.log = s.log ++ acts ∧ ran acts = [] ∧
      (match samples acts with
        | [] => printed acts = []
        | v :: r => printed acts = (reported true none (v :: debounced (if v then 1 else 0) [] (numbers r))).map (·.1)) ∧
      (step a patience (.poll text) s = .busy s' → (samples acts).length = patience + 1) ∧ Prompt acts ∧
      (∀ n, Reads text false n [] → n ≤ 9223372036854775 → Paced (BitVec.ofNat 64 (n * 1000)) (later acts)) := by
  simp only [step, number] at hl ⊢
  by_cases hn : (Number.unsigned text).2.1 ≠ []
  · rw [if_pos hn] at hl ⊢
    have := leads_stop hl
    subst this
    exact ⟨[], by simp, rfl, rfl, fun h => (by cases h), trivial, fun _ _ _ => trivial⟩
  · rw [if_neg hn] at hl ⊢
    cases ht : ticks (Number.unsigned text).1 with
    | none => rw [ht] at hl; rcases hl with h | ⟨_, h⟩ | h <;> cases h
    | some t =>
      rw [ht] at hl
      simp only [need] at hl ⊢
      cases hf : s.fd with
      | none =>
        rw [hf] at hl
        have := leads_stop hl
        subst this
        exact ⟨[], by simp, rfl, rfl, fun h => (by cases h), trivial, fun _ _ _ => trivial⟩
      | some h =>
        rw [hf] at hl
        obtain ⟨acts, g1, g2, g3, g4, g5, g6, _⟩ := poll_reports a h t patience s s' hc hl
        refine ⟨acts, g1, g2, g3, g4, g6, fun n hr hn => ?_⟩
        rw [(reads_value hr (by omega)).1, ticks_eq hn] at ht
        injection ht with ht
        rw [ht]; exact g5

/-- C146 (`-m`): with `-1` the level is printed first; after that every edge, or with `-U` every edge that differs from the one before, is printed at once, or a command is run with the device, the line, the level and the one before; each event is read when it is there, and it goes on
until something fails or the reader has gone, with a wait for each turn.  For commands that fit into the buffer, and for times that are positive: see the counterexamples. -/
theorem linetool_monitors_partial (patience : Nat) (text : List Byte) (s s' : State σ) (hc : s.caught = false) (hp : s.pending = false) (hl : Leads (step a patience (.watch text) s) s') :
    ∃ acts, s'.log = s.log ++ acts ∧
      (s.command = none → printed acts = samples acts ++ (reported s.unique (samples acts).head? (edges acts)).map (·.1) ∧ ran acts = []) ∧
      (∀ command path, s.command = some command → s.context.path = some path → (∀ x, (invocation command path s.context.line x).length ≤ 1023) →
        printed acts = samples acts ∧ ran acts = (reported s.unique (samples acts).head? (edges acts)).map (invocation command path s.context.line)) ∧
      (step a patience (.watch text) s = .busy s' → waits acts = patience) ∧
      (s.first = false → samples acts = []) ∧ (s.first = true → edges acts ≠ [] ∨ step a patience (.watch text) s = .busy s' → (samples acts).length = 1) ∧ (samples acts).length ≤ 1 ∧
      Prompt acts ∧ (∀ n, Reads text false n [] → 0 < n → n ≤ 9223372036854775 → Awaits (n * 1000) acts) ∧
      (step a patience (.watch text) s = .next s' → ∃ h t, after acts = [.waited h t .interrupted]) := by
  simp only [step] at hl ⊢
  by_cases hn : (Number.signed text).2.1 ≠ []
  · rw [if_pos hn] at hl ⊢
    have := leads_stop hl
    subst this
    exact ⟨[], by simp, fun _ => ⟨rfl, rfl⟩, fun _ _ _ _ _ => ⟨rfl, rfl⟩, fun h => (by cases h), fun _ => rfl, fun _ h => h.elim (fun h => absurd rfl h) (fun h => (by cases h)), by decide, trivial, fun _ _ _ _ => trivial, fun h => (by cases h)⟩
  · rw [if_neg hn] at hl ⊢
    cases ht : (if (Number.signed text).1 > 0 then Time.units2ticks (Number.signed text).1 1000000 else some s.sticks) with
    | none => rw [ht] at hl; rcases hl with h | ⟨_, h⟩ | h <;> cases h
    | some t =>
      rw [ht] at hl
      simp only [need] at hl ⊢
      cases hf : s.fd with
      | none =>
        rw [hf] at hl
        have := leads_stop hl
        rw [← this]
        exact ⟨[], by simp, fun _ => ⟨rfl, rfl⟩, fun _ _ _ _ _ => ⟨rfl, rfl⟩, fun h => (by cases h), fun _ => rfl, fun _ h => h.elim (fun h => absurd rfl h) (fun h => (by cases h)), by decide, trivial, fun _ _ _ _ => trivial, fun h => (by cases h)⟩
      | some h =>
        rw [hf] at hl
        obtain ⟨acts, g1, g2, g3, g4, g5, g6, g7, g8, g9, _, g10⟩ := watch_reports a patience h { s with sticks := t, fd := some h } s' hc hp hl
        refine ⟨acts, g1, g2, fun command path h1 h2 h3 => ?_, g4, g5, g6, g7, g9, fun n hr h0 hn => ?_, fun q => ⟨_, _, g10 q⟩⟩
        · obtain ⟨q1, q2⟩ := g3 command h1
          refine ⟨q1, (q2 path h2).trans ?_⟩
          apply List.map_congr_left
          intro x _
          exact commandLine_fits command path s.context.line x (h3 x)
        · have hv := (Number.number_signed_reads hr).1 (by omega) rfl
          rw [hv, if_pos (by omega), micro, Time.chk, if_pos (by omega)] at ht
          injection ht with ht
          rw [ht]; exact g8

/-- C146 (the reader): if one monitor, or `-O`, comes last, then once it is found that the reader has gone nothing more is done than to be interrupted and to close the line, and the exit code is zero.  See the counterexample for other options that follow. -/
theorem linetool_pipe_partial (patience : Nat) (pre : List Opt) (o : Opt) (hpre : ∀ o ∈ pre, plain o = true) (k : σ) (code : Nat) (s : State σ) (he : main a patience (pre ++ [o]) k = .exit code s) (hm : Act.flushed true ∈ s.log) :
    code = 0 ∧ Ends s.log :=
  loop_pipe a patience o pre (start k) hpre rfl rfl rfl (by simp [start]) code s he hm

/-! ## Examples -/

/-- What is observed at the end: the exit code, or that a monitor goes on; what has been printed; and what has been run. -/
def observed {σ : Type} : Outcome σ → Option (Option Nat × List Bool × List (List Byte))
  | .exit c s => some (some c, printed s.log, ran s.log)
  | .busy s => some (none, printed s.log, ran s.log)
  | .undefined => none

/-- All that has been seen at the end. -/
def seen {σ : Type} : Outcome σ → List Act
  | .exit _ s => s.log
  | .busy s => s.log
  | .undefined => []

/-- A machine with low lines. -/
def low : Gpio := ⟨fun _ => false, [], 0⟩

theorem reads {text : List Byte} {n : Nat} (h : Number.scan text = some (false, n, [])) : Reads text false n [] := (Number.scan_iff _ _ _ _).1 h

/-- `-D x -p 16 -o -H -x -r -s -r -u 5000000 -r -c -r -e -p 18 -x -r -w 0 -r -u 5000000 -r -w 1 -r -n`, `Diminuto/bin/linetool.c:16`. -/
def session : List Opt :=
  [.device [120], .line [49, 54], .flag .output, .flag (.active false), .configure, .read, .write true, .read, .delay [53, 48, 48, 48, 48, 48, 48], .read, .write false, .read, .shut,
   .line [49, 56], .configure, .read, .writeText [48], .read, .delay [53, 48, 48, 48, 48, 48, 48], .read, .writeText [49], .read, .clear]

/-- What it stands for. -/
def sessionCommands : List Command :=
  [.device [120], .line false 16, .set .output, .set (.active false), .open, .read, .write true, .read, .quiet, .read, .write false, .read, .close,
   .line false 18, .open, .read, .write false, .read, .quiet, .read, .write true, .read, .clear]

theorem session_script : Script (fun _ => none) session sessionCommands :=
  .cons rfl (.cons (.plain (by decide) (reads (by decide)) (by decide)) (.cons rfl (.cons rfl (.cons trivial (.cons trivial (.cons rfl (.cons trivial (.cons ⟨5000000, reads (by decide), by decide⟩ (.cons trivial (.cons rfl (.cons trivial (.cons trivial
    (.cons (.plain (by decide) (reads (by decide)) (by decide)) (.cons trivial (.cons trivial (.cons ⟨0, reads (by decide), by decide, rfl⟩ (.cons trivial (.cons ⟨5000000, reads (by decide), by decide⟩ (.cons trivial
      (.cons ⟨1, reads (by decide), by decide, rfl⟩ (.cons trivial (.cons trivial .nil))))))))))))))))))))))

example : ∃ s, main (gpio fun _ => none) 0 session low = .exit 0 s ∧ printed s.log = [false, true, true, false, false, false, false, true] ∧ s.kernel.level ([120], 18) = true ∧ s.kernel.level ([120], 16) = false := by
  obtain ⟨s, h1, h2, h3⟩ := linetool_values_partial 0 session_script low (by simp [sessionCommands, Steady, Proper, effect, Settings.set, Settings.blank])
  exact ⟨s, h1, h3, by rw [h2]; rfl, by rw [h2]; rfl⟩

/-- The state after `-D x -p 5 -i`. -/
def ready : State Gpio := { (start low) with context := ⟨some [120], 5, 4, 0⟩ }

example : Reaches (gpio fun _ => none) 0 low [.device [120], .line [53], .flag .input] ready :=
  .step (opts := [.device [120], .line [53]]) (s := { (start low) with context := ⟨some [120], 5, 0, 0⟩ }) (.step (opts := [.device [120]]) (s := { (start low) with context := ⟨some [120], 0xffffffff, 0, 0⟩ }) (.step (opts := []) .start rfl rfl) rfl rfl) rfl rfl

example : ∃ s', Leads (step (gpio fun _ => none) 0 .configure ready) s' ∧ s'.fd = some 0 := ⟨_, Or.inl rfl, rfl⟩

example : (∀ c k, c.path = none → ((gpio fun _ => none).open_ c k).1 = none) ∧ Bounded (.delay [53]) := by
  refine ⟨fun c k h => by simp [gpio, h], fun g n h => ?_⟩
  have h1 := (Number.scan_iff _ _ _ _).2 h
  have h2 : Number.scan [53] = some (false, 5, []) := by decide
  rw [h2] at h1
  injection h1 with h1
  injection h1 with _ h1
  injection h1 with h1 _
  omega

/-- Samples, edges, and whether the reader has gone whenever something is flushed. -/
structure Tape where
  levels : List Bool
  events : List Event
  gone : List Bool

/-- Samples and edges one after the other, and failures at the end. -/
def tape : Api Tape where
  parse _ := none
  open_ _ k := (some 0, k)
  close _ k := (true, k)
  get _ k := (k.levels.head?, { k with levels := k.levels.tail })
  put _ _ k := (true, k)
  read _ k := (k.events.headD .failed, { k with events := k.events.tail })
  wait _ _ k := (.ready, k)
  delay _ k := k
  system _ k := (true, k)
  daemon k := (true, k)
  flush k := (k.gone.headD false, { k with gone := k.gone.tail })

example : observed (main tape 20 [.device [120], .line [53], .flag .input, .configure, .poll [49]] ⟨[false, true, true, false, true, true, true, false, true, false, false, false, false], [], []⟩) = some (some 2, [false, true, false], []) := by decide +kernel

example : (reported true none (false :: debounced 0 [] (numbers [true, true, false, true, true, true, false, true, false, false, false, false]))).map (·.1) = [false, true, false] := by decide +kernel

example : observed (main tape 5 [.device [120], .line [53], .configure, .unique, .first, .watch [49]] ⟨[false], [.edge false, .edge true, .again, .edge true, .edge false], []⟩) = some (none, [false, true, false], []) := by decide +kernel

example : observed (main tape 3 [.device [120], .line [53], .configure, .unique, .command [97], .watch [49]] ⟨[], [.edge false, .edge false, .edge true], []⟩) =
    some (none, [], [[97, 32, 120, 32, 53, 32, 48, 32, 45, 49], [97, 32, 120, 32, 53, 32, 49, 32, 48]]) := by decide +kernel

example : invocation [97] [120] 5 (true, some false) = [97, 32, 120, 32, 53, 32, 49, 32, 48] ∧ (invocation [97] [120] 5 (true, none)).length ≤ 1023 := by decide +kernel

example : (∀ o ∈ [Opt.device [120], .line [53], .configure], plain o = true) ∧
    seen (main tape 9 ([.device [120], .line [53], .configure] ++ [.watch [49]]) ⟨[], [.edge true, .edge false], [false, true]⟩) =
      [.opened ⟨some [120], 5, 0, 0⟩ (some 0), .waited 0 1000 .ready, .read 0 (.edge true), .printed true, .flushed false, .waited 0 1000 .ready, .read 0 (.edge false), .printed false, .flushed true,
        .waited 0 1000 .interrupted, .closed 0 true] := by decide +kernel

/-! ## Counterexamples -/

/-- C144 does not hold for what the help says of `-D` and `-p`, which is that they close: after `-D x -p 5 -o -x -p 6 -s` line 5 is set, and not line 6; the command of `-m` gets line 6 for edges of line 5. -/
theorem linetool_line_counterexample :
    (match main (gpio fun _ => none) 0 [.device [120], .line [53], .flag .output, .configure, .line [54], .write true] low with
      | .exit c s => c = 0 ∧ s.kernel.level ([120], 5) = true ∧ s.kernel.level ([120], 6) = false
      | _ => False) ∧
    observed (main tape 1 [.device [120], .line [53], .configure, .line [54], .command [97], .watch [49]] ⟨[], [.edge true], []⟩) = some (none, [], [[97, 32, 120, 32, 54, 32, 49, 32, 45, 49]]) := by
  refine ⟨?_, by decide +kernel⟩
  have h : Script (fun _ => none) [.device [120], .line [53], .flag .output, .configure, .line [54], .write true] [.device [120], .line false 5, .set .output, .open, .line false 6, .write true] :=
    .cons rfl (.cons (.plain (by decide) (reads (by decide)) (by decide)) (.cons rfl (.cons trivial (.cons (.plain (by decide) (reads (by decide)) (by decide)) (.cons rfl .nil)))))
  obtain ⟨s, h1, h2, _⟩ := linetool_values_partial 0 h low (by simp [Steady, Proper, effect, Settings.set, Settings.blank])
  rw [h1]
  exact ⟨rfl, by rw [h2]; rfl, by rw [h2]; rfl⟩

/-- C144 does not hold for the direction or the edge being configured to what an option says: `-R -F` asks for both edges, and `-i -o` for both directions, which a driver refuses. -/
theorem linetool_flags_counterexample :
    (seen (main tape 0 [.device [120], .line [53], .flag .input, .flag .rising, .flag .falling, .configure] ⟨[], [], []⟩)).head? = some (.opened ⟨some [120], 5, INPUT ||| RISING ||| FALLING, 0⟩ (some 0)) ∧
    observed (main (gpio fun _ => none) 0 [.device [120], .line [53], .flag .input, .flag .output, .configure] low) = some (some 2, [], []) := by decide +kernel

/-- C144 does not hold for the last close: `-D x -p 5 -x` succeeds although the line could not be closed, while `-D x -p 5 -x -e` is an error, and closes it once more. -/
theorem linetool_success_counterexample :
    observed (main { tape with close := fun _ k => (false, k) } 0 [.device [120], .line [53], .configure] ⟨[], [], []⟩) = some (some 0, [], []) ∧
    observed (main { tape with close := fun _ k => (false, k) } 0 [.device [120], .line [53], .configure, .shut] ⟨[], [], []⟩) = some (some 2, [], []) ∧
    (seen (main { tape with close := fun _ k => (false, k) } 0 [.device [120], .line [53], .configure, .shut] ⟨[], [], []⟩)).drop 1 = [.closed 0 false, .closed 0 false] := by decide +kernel

/-- C144 and C145 do not hold for times that cannot be counted in nanoseconds: the product for `-u 9223372036854776` is not defined. -/
theorem linetool_delay_counterexample (k : σ) : main a 0 [.delay [57, 50, 50, 51, 51, 55, 50, 48, 51, 54, 56, 53, 52, 55, 55, 54]] k = .undefined := by
  have hr : Reads [57, 50, 50, 51, 51, 55, 50, 48, 51, 54, 56, 53, 52, 55, 55, 54] false 9223372036854776 [] := reads (by decide)
  rw [main, loop, if_neg (by simp [start]), step, number_reads hr (by decide), show ticks 9223372036854776 = none by decide]

/-- C145 does not hold for numbers that do not fit into 64 bits or are not there: `-p ''` is line 0, and `-w ''` writes low. -/
theorem linetool_values_counterexample :
    seen (main tape 0 [.device [120], .line [], .configure, .writeText []] ⟨[], [], []⟩) = [.opened ⟨some [120], 0, 0, 0⟩ (some 0), .put 0 false true, .closed 0 true] := by decide +kernel

/-- C146 does not hold for a time of zero: `-m 0` does not poll, as a comment says, but waits for as long as it takes, with a time of −2. -/
theorem linetool_timeout_counterexample :
    (seen (main tape 1 [.device [120], .line [53], .configure, .watch [48]] ⟨[], [.edge true], []⟩))[1]? = some (.waited 0 (-2) .ready) := by decide +kernel

/-- C146 does not hold for a command that does not fit into the buffer: it is run without its arguments, or whatever is left of it. -/
theorem linetool_command_counterexample :
    observed (main tape 1 [.device [120], .line [53], .configure, .command (List.replicate 1025 97), .watch [49]] ⟨[], [.edge true], []⟩) = some (none, [], [List.replicate 1023 97]) := by decide +kernel

/-- The reader has gone, and there is always an edge. -/
def gone : Api Unit where
  parse _ := none
  open_ _ _ := (some 0, ())
  close _ _ := (true, ())
  get _ _ := (some true, ())
  put _ _ _ := (true, ())
  read _ _ := (.edge true, ())
  wait _ _ _ := (.ready, ())
  delay _ _ := ()
  system _ _ := (true, ())
  daemon _ := (true, ())
  flush _ := (true, ())

theorem polling_gone (h : Nat) (t : BitVec 64) : ∀ (n : Nat) (cue : Cue.State) (s : State Unit), s.caught = false → s.blocked = true → ∃ s', polling gone h t n cue s = .busy s' := by
  intro n
  induction n with
  | zero => intro cue s _ _; exact ⟨s, rfl⟩
  | succ n ih =>
    intro cue s hc hb
    have e : polling gone h t (n + 1) cue s = if (Cue.debounce cue 1).r ≠ s.state then polling gone h t n (Cue.debounce cue 1) (flush gone (print (Cue.debounce cue 1).r { s with log := s.log ++ [.slept t] ++ [.got h (some true)] }))
        else polling gone h t n (Cue.debounce cue 1) { s with log := s.log ++ [.slept t] ++ [.got h (some true)], state := (Cue.debounce cue 1).r } := by
      rw [polling, if_neg (by rw [hc]; simp)]; rfl
    rw [e]
    by_cases hq : (Cue.debounce cue 1).r ≠ s.state
    · rw [if_pos hq]
      exact ih _ _ (by simp [flush, print, hc, hb]) (by simp [flush, print, hb])
    · rw [if_neg hq]
      exact ih _ _ hc hb

/-- C146 does not hold for options that follow a monitor: with the reader gone `-b` or `-m` ends, but a `-s` after it is still done; and after `-m` the signal remains blocked, so that a `-b` after it does not end however long it goes on. -/
theorem linetool_pipe_counterexample :
    seen (main gone 3 [.device [120], .line [53], .configure, .poll [49], .write true] ()) = [.opened ⟨some [120], 5, 0, 0⟩ (some 0), .got 0 (some true), .printed true, .flushed true, .put 0 true true, .closed 0 true] ∧
    seen (main gone 3 [.device [120], .line [53], .configure, .watch [49], .write true] ()) =
      [.opened ⟨some [120], 5, 0, 0⟩ (some 0), .waited 0 1000 .ready, .read 0 (.edge true), .printed true, .flushed true, .waited 0 1000 .interrupted, .put 0 true true, .closed 0 true] ∧
    ∀ n, ∃ s, main gone (n + 3) [.device [120], .line [53], .configure, .watch [49], .poll [49]] () = .busy s := by
  refine ⟨by decide +kernel, by decide +kernel, fun n => ?_⟩
  have hr : Reads [49] false 1 [] := reads (by decide)
  have h1 : step gone (n + 3) (.watch [49]) { (start ()) with context := ⟨some [120], 5, 0, 0⟩, fd := some 0, log := [.opened ⟨some [120], 5, 0, 0⟩ (some 0)] } =
      .next { (start ()) with context := ⟨some [120], 5, 0, 0⟩, fd := some 0, state := true, sticks := 1000, blocked := true, log := [.opened ⟨some [120], 5, 0, 0⟩ (some 0), .waited 0 1000 .ready, .read 0 (.edge true), .printed true, .flushed true, .waited 0 1000 .interrupted] } := rfl
  have h2 : main gone (n + 3) [.device [120], .line [53], .configure, .watch [49], .poll [49]] () =
      loop gone (n + 3) [.watch [49], .poll [49]] { (start ()) with context := ⟨some [120], 5, 0, 0⟩, fd := some 0, log := [.opened ⟨some [120], 5, 0, 0⟩ (some 0)] } := rfl
  rw [h2, loop, if_neg (by simp [start]), h1]
  simp only []
  have hl : ∀ o s s', s.caught = false → step gone (n + 3) o s = .busy s' → loop gone (n + 3) [o] s = .busy s' := by
    intro o s s' hc hs
    rw [loop, if_neg (by rw [hc]; simp), hs]
  obtain ⟨s, hs⟩ := polling_gone 0 (BitVec.ofNat 64 (1 * 1000)) (n + 3) (Cue.init 1)
    (flush gone (print true { (start ()) with context := ⟨some [120], 5, 0, 0⟩, fd := some 0, state := true, sticks := 1000, blocked := true, log := [.opened ⟨some [120], 5, 0, 0⟩ (some 0), .waited 0 1000 .ready, .read 0 (.edge true), .printed true, .flushed true, .waited 0 1000 .interrupted] ++ [.got 0 (some true)] }))
    (by simp [flush, print, start, gone]) (by simp [flush, print])
  refine ⟨s, ?_⟩
  refine hl _ _ _ rfl ?_
  rw [step, number_reads hr (by decide), ticks_eq (by decide)]
  exact hs

end Diminuto.Linetool
