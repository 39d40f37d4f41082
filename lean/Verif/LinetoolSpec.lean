import Verif.Linetool
import Verif.NumberSpec
import Verif.PintoolSpec

/-!
# Specification: the tool that manipulates lines
-/

namespace Diminuto.Linetool

open Diminuto.Number (Reads)

/-! ## Lines -/

/-- The line that is open: the context it was opened with, and its descriptor. -/
abbrev Held := Option (Context × Nat)

/-- The line that is open after what has been seen. -/
def held : Held → List Act → Held
  | cur, [] => cur
  | _, .opened c (some h) :: r => held (some (c, h)) r
  | _, .closed _ true :: r => held none r
  | cur, _ :: r => held cur r

/-- There is never more than one line open, and whatever is used or closed is the descriptor of the one that is open. -/
def Orderly : Held → List Act → Prop
  | _, [] => True
  | cur, .opened c (some h) :: r => cur = none ∧ Orderly (some (c, h)) r
  | cur, .opened _ none :: r => cur = none ∧ Orderly none r
  | cur, .closed h true :: r => (∃ c, cur = some (c, h)) ∧ Orderly none r
  | cur, .closed h false :: r => (∃ c, cur = some (c, h)) ∧ Orderly cur r
  | cur, .got h _ :: r => (∃ c, cur = some (c, h)) ∧ Orderly cur r
  | cur, .put h _ _ :: r => (∃ c, cur = some (c, h)) ∧ Orderly cur r
  | cur, .waited h _ _ :: r => (∃ c, cur = some (c, h)) ∧ Orderly cur r
  | cur, .read h _ :: r => (∃ c, cur = some (c, h)) ∧ Orderly cur r
  | cur, .slept _ :: r => Orderly cur r
  | cur, .ran _ _ :: r => Orderly cur r
  | cur, .daemonized _ :: r => Orderly cur r
  | cur, .printed _ :: r => Orderly cur r
  | cur, .shown _ h :: r => h = cur.map (·.2) ∧ Orderly cur r
  | cur, .flushed _ :: r => Orderly cur r

/-- What was done has not failed. -/
def Fine : Act → Prop
  | .opened _ r => r ≠ none
  | .put _ _ ok => ok = true
  | .got _ v => v ≠ none
  | .waited _ _ r => r ≠ .failed
  | .read _ r => r ≠ .failed
  | .ran _ ok => ok = true
  | .daemonized ok => ok = true
  | .closed _ ok => ok = true
  | _ => True

/-- Options have been dealt with. -/
inductive Reaches {σ : Type} (a : Api σ) (patience : Nat) (k : σ) : List Opt → State σ → Prop
  | start : Reaches a patience k [] (start k)
  | step {opts : List Opt} {o : Opt} {s s' : State σ} : Reaches a patience k opts s → s.caught = false → step a patience o s = .next s' → Reaches a patience k (opts ++ [o]) s'

/-- What an option leads to: to go on, to stop, or to be still in a loop. -/
def Leads {σ : Type} (f : Flow σ) (s : State σ) : Prop := f = .next s ∨ (∃ code, f = .stop code s) ∨ f = .busy s

/-! ## The context -/

/-- What the last of the options that have a say says. -/
def latest {α : Type} (says : Opt → Option α) : List Opt → Option α
  | [] => none
  | o :: r => (latest says r).or (says o)

/-- The argument of `-p`: an optional sign, which makes the line active low, and a number. -/
inductive IsLine : List Byte → Bool → Nat → Prop
  | plain {text : List Byte} {n : Nat} : text.head? ≠ some 0x2d#8 → Reads text false n [] → n < 2 ^ 32 → IsLine text false n
  | inverted {text : List Byte} {n : Nat} : Reads text false n [] → n < 2 ^ 32 → IsLine (0x2d#8 :: text) true n

section
variable (parse : List Byte → Option (List Byte × BitVec 32 × Bool))

/-- Of the device: `-D`, `-P` and `-n`. -/
def saysPath : Opt → Option (Option (List Byte))
  | .device text => some (some text)
  | .place text => some ((parse text).map (·.1))
  | .clear => some none
  | _ => none

/-- Of the offset: `-p`, the argument of which is on the left, `-P` and `-n`. -/
def saysLine : Opt → Option (List Byte ⊕ Option (BitVec 32))
  | .line text => some (.inl text)
  | .place text => some (.inr ((parse text).map (·.2.1)))
  | .clear => some (.inr none)
  | _ => none

/-- Of whether it is active low: `-H`, `-L`, `-h`, `-l`, `-n`, and `-p` and `-P` if they have a sign for it. -/
def saysLow : Opt → Option Bool
  | .flag (.active low) => some low
  | .flag (.initial low) => some low
  | .clear => some false
  | .line text => if text.head? = some 0x2d#8 then some true else none
  | .place text => if (parse text).map (·.2.2) = some true then some true else none
  | _ => none

/-- Of whether it is for input: `-i`, `-h`, `-l` and `-n`. -/
def saysInput : Opt → Option Bool
  | .flag .input => some true
  | .flag (.initial _) => some false
  | .clear => some false
  | _ => none

/-- Of whether it is for output: `-o`, `-h`, `-l` and `-n`. -/
def saysOutput : Opt → Option Bool
  | .flag .output => some true
  | .flag (.initial _) => some true
  | .clear => some false
  | _ => none

/-- Of whether there are events for rising edges: `-R`, `-B`, `-N`, `-h`, `-l` and `-n`. -/
def saysRising : Opt → Option Bool
  | .flag .rising => some true
  | .flag .both => some true
  | .flag .none => some false
  | .flag (.initial _) => some false
  | .clear => some false
  | _ => none

/-- Of whether there are events for falling edges: `-F`, `-B`, `-N`, `-h`, `-l` and `-n`. -/
def saysFalling : Opt → Option Bool
  | .flag .falling => some true
  | .flag .both => some true
  | .flag .none => some false
  | .flag (.initial _) => some false
  | .clear => some false
  | _ => none

/-- Of the debounce period: `-M`, the argument of which is on the left, and `-n`. -/
def saysPeriod : Opt → Option (List Byte ⊕ Unit)
  | .debounce text => some (.inl text)
  | .clear => some (.inr ())
  | _ => none

/-- Of the command: `-X`. -/
def saysCommand : Opt → Option (List Byte)
  | .command text => some text
  | _ => none

/-- The flags from the bits. -/
def assemble (low input output rising falling : Bool) : BitVec 64 :=
  (if low then 0x2 else 0) + (if input then 0x4 else 0) + (if output then 0x8 else 0) + (if rising then 0x10 else 0) + (if falling then 0x20 else 0)

/-- The context is what has been asked for. -/
structure Asked (opts : List Opt) (c : Context) : Prop where
  path : c.path = (latest (saysPath parse) opts).getD none
  line : match latest (saysLine parse) opts with
    | none => c.line = 0xffffffff
    | some (.inr r) => c.line = r.getD 0xffffffff
    | some (.inl text) => ∀ low n, IsLine text low n → c.line = BitVec.ofNat 32 n
  flags : c.flags = assemble ((latest (saysLow parse) opts).getD false) ((latest saysInput opts).getD false) ((latest saysOutput opts).getD false)
    ((latest saysRising opts).getD false) ((latest saysFalling opts).getD false)
  period : match latest saysPeriod opts with
    | none => c.useconds = 0
    | some (.inr _) => c.useconds = 0
    | some (.inl text) => ∀ n, Reads text false n [] → n < 2 ^ 32 → c.useconds = BitVec.ofNat 32 n

end

/-- The times that are asked for can be counted in nanoseconds in 63 bits. -/
def Bounded : Opt → Prop
  | .poll text => ∀ g n, Reads text g n [] → n ≤ 9223372036854775
  | .delay text => ∀ g n, Reads text g n [] → n ≤ 9223372036854775
  | .watch text => ∀ n, Reads text false n [] → n ≤ 9223372036854775
  | _ => True

/-! ## Values -/

/-- A line of a device. -/
abbrev Place := List Byte × Nat

/-- The lines of a machine on which everything works: their levels, and the descriptors, with their lines, whether they are active low, and whether they are for output. -/
structure Gpio where
  level : Place → Bool
  open_ : List (Nat × Place × Bool × Bool)
  next : Nat

/-- What a driver accepts: not both directions, events and a debounce period only for input. -/
def accepts (flags : BitVec 64) (useconds : BitVec 32) : Bool :=
  !(flags.getLsbD 2 && flags.getLsbD 3) && (!(flags.getLsbD 4 || flags.getLsbD 5) || flags.getLsbD 2) && (useconds = 0 || flags.getLsbD 2)

/-- The machine.  A context without flags is for input and for events of both kinds, `Diminuto/inc/com/diag/diminuto/diminuto_line.h:249-251`, and there are 64 lines. -/
def gpio (parse : List Byte → Option (List Byte × BitVec 32 × Bool)) : Api Gpio where
  parse := parse
  open_ c g :=
    let flags := if c.flags = 0 then 0x34#64 else c.flags
    match c.path with
    | none => (none, g)
    | some path =>
      if c.line.toNat < 64 ∧ accepts flags c.useconds then
        (some g.next, { g with open_ := (g.next, (path, c.line.toNat), flags.getLsbD 1, flags.getLsbD 3) :: g.open_, next := g.next + 1 })
      else (none, g)
  close h g := (true, { g with open_ := g.open_.filter (·.1 ≠ h) })
  get h g := match g.open_.find? (·.1 = h) with | some (_, p, low, _) => (some (g.level p != low), g) | none => (none, g)
  put h b g := match g.open_.find? (·.1 = h) with
    | some (_, p, low, true) => (true, { g with level := fun q => if q = p then b != low else g.level q })
    | _ => (false, g)
  read _ g := (.again, g)
  wait _ _ g := (.timeout, g)
  delay _ g := g
  system _ g := (true, g)
  daemon g := (true, g)
  flush g := (false, g)

/-- What is asked for. -/
inductive Command where
  | set (f : Flag)
  | device (path : List Byte)
  | line (low : Bool) (n : Nat)
  | place (path : List Byte) (n : Nat) (low : Bool)
  | period (n : Nat)
  | «open»
  | close
  | clear
  | read
  | write (b : Bool)
  | test (nonzero : Bool)
  | quiet
deriving DecidableEq

/-- Options stand for commands. -/
def Spelled (parse : List Byte → Option (List Byte × BitVec 32 × Bool)) : Opt → Command → Prop
  | .flag f, .set f' => f = f'
  | .device text, .device path => text = path
  | .line text, .line low n => IsLine text low n
  | .place text, .place path n low => ∃ l, parse text = some (path, l, low) ∧ l.toNat = n
  | .debounce text, .period n => Reads text false n [] ∧ n < 2 ^ 32
  | .configure, .open => True
  | .shut, .close => True
  | .clear, .clear => True
  | .read, .read => True
  | .write b, .write b' => b = b'
  | .writeText text, .write b => ∃ n, Reads text false n [] ∧ n < 2 ^ 64 ∧ b = (n != 0)
  | .test b, .test b' => b = b'
  | .delay text, .quiet => ∃ n, Reads text false n [] ∧ n ≤ 9223372036854775
  | .first, .quiet => True
  | .unique, .quiet => True
  | .command _, .quiet => True
  | .daemon, .quiet => True
  | .context, .quiet => True
  | .menu, .quiet => True
  | _, _ => False

/-- Lists of options stand for lists of commands. -/
inductive Script (parse : List Byte → Option (List Byte × BitVec 32 × Bool)) : List Opt → List Command → Prop
  | nil : Script parse [] []
  | cons {o : Opt} {c : Command} {os : List Opt} {cs : List Command} : Spelled parse o c → Script parse os cs → Script parse (o :: os) (c :: cs)

/-- What the user knows of the settings. -/
structure Settings where
  path : Option (List Byte)
  line : Nat
  low : Bool
  input : Bool
  output : Bool
  rising : Bool
  falling : Bool
  period : Nat

/-- What the options for the flags mean. -/
def Settings.set (x : Settings) : Flag → Settings
  | .both => { x with rising := true, falling := true }
  | .rising => { x with rising := true }
  | .falling => { x with falling := true }
  | .none => { x with rising := false, falling := false }
  | .active low => { x with low := low }
  | .initial low => { x with low := low, input := false, output := true, rising := false, falling := false }
  | .input => { x with input := true }
  | .output => { x with output := true }

/-- The settings without any. -/
def Settings.blank : Settings := ⟨none, 4294967295, false, false, false, false, false, 0⟩

/-- What the user knows: the settings, the line that is open with whether it is active low and for output, the levels of all lines, the last value that was read or written, and what has been printed. -/
structure Account where
  settings : Settings
  open_ : Option (Place × Bool × Bool)
  level : Place → Bool
  last : Bool
  out : List Bool

/-- What a command means. -/
def effect (c : Command) (x : Account) : Account :=
  match c with
  | .set f => { x with settings := x.settings.set f }
  | .device path => { x with settings := { x.settings with path := some path } }
  | .line low n => { x with settings := { x.settings with line := n, low := x.settings.low || low } }
  | .place path n low => { x with settings := { x.settings with path := some path, line := n, low := x.settings.low || low } }
  | .period n => { x with settings := { x.settings with period := n } }
  | .open => { x with open_ := some (((x.settings.path.getD []), x.settings.line), x.settings.low, x.settings.output) }
  | .close => { x with open_ := none }
  | .clear => { x with settings := .blank, open_ := none }
  | .read => match x.open_ with | some (p, low, _) => { x with last := (x.level p != low), out := x.out ++ [x.level p != low] } | none => x
  | .write b => match x.open_ with | some (p, low, _) => { x with last := b, level := fun q => if q = p then b != low else x.level q } | none => x
  | .test _ => x
  | .quiet => x

/-- A command can be followed: a line is opened with settings that a driver accepts while none is open, is read while it is open, and is written if it is for output. -/
def Proper (c : Command) (x : Account) : Prop :=
  match c with
  | .open => x.open_ = none ∧ x.settings.path ≠ none ∧ x.settings.line < 64 ∧ ¬ (x.settings.input = true ∧ x.settings.output = true) ∧
      (x.settings.rising = true ∨ x.settings.falling = true → x.settings.input = true) ∧
      (x.settings.period ≠ 0 → x.settings.input = true ∨ (x.settings.low = false ∧ x.settings.output = false))
  | .read => x.open_ ≠ none
  | .write _ => ∃ p low, x.open_ = some (p, low, true)
  | _ => True

/-- What commands mean; a test that fails ends it. -/
def meaning : List Command → Account → Account
  | [], x => x
  | .test nonzero :: r, x => if x.last = nonzero then meaning r x else x
  | c :: r, x => meaning r (effect c x)

/-- All commands can be followed. -/
def Steady : List Command → Account → Prop
  | [], _ => True
  | .test nonzero :: r, x => x.last = nonzero → Steady r x
  | c :: r, x => Proper c x ∧ Steady r (effect c x)

/-! ## Monitors -/

/-- What has been printed. -/
def printed (log : List Act) : List Bool := log.filterMap fun e => match e with | .printed b => some b | _ => none

/-- What has been run. -/
def ran (log : List Act) : List (List Byte) := log.filterMap fun e => match e with | .ran t _ => some t | _ => none

/-- The values that have been read. -/
def samples (log : List Act) : List Bool := log.filterMap fun e => match e with | .got _ v => v | _ => none

/-- The edges that have been seen: whether they were rising. -/
def edges (log : List Act) : List Bool := log.filterMap fun e => match e with | .read _ (.edge b) => some b | _ => none

/-- The number of times that were waited. -/
def waits (log : List Act) : Nat := log.countP fun e => match e with | .waited _ _ _ => true | _ => false

/-- Values as numbers. -/
def numbers (l : List Bool) : List Int := l.map fun b => if b then 1 else 0

/-- What is done after the first sample. -/
def later : List Act → List Act
  | [] => []
  | .got _ _ :: r => r
  | _ :: r => later r

/-- Each sample is taken after a delay. -/
def Paced (t : BitVec 64) : List Act → Prop
  | [] => True
  | .slept t' :: .got _ _ :: r => t' = t ∧ Paced t r
  | .slept _ :: _ => False
  | .got _ _ :: _ => False
  | _ :: r => Paced t r

/-- Each event is read once waiting for it has told that it is there, and is waited for with a time. -/
def Awaits (t : Int) : List Act → Prop
  | [] => True
  | .waited _ t' .ready :: .read _ _ :: r => t' = t ∧ Awaits t r
  | .waited _ _ .ready :: _ => False
  | .waited _ t' _ :: r => t' = t ∧ Awaits t r
  | .read _ _ :: _ => False
  | _ :: r => Awaits t r

/-- Whatever is printed is flushed at once. -/
def Prompt : List Act → Prop
  | [] => True
  | .printed _ :: .flushed _ :: r => Prompt r
  | .printed _ :: _ => False
  | _ :: r => Prompt r

/-- What is done after it has been found that the reader has gone. -/
def after : List Act → List Act
  | [] => []
  | .flushed true :: r => r
  | _ :: r => after r

/-- The options that neither monitor nor print the context. -/
def plain : Opt → Bool
  | .poll _ | .watch _ | .context => false
  | _ => true

/-- Nothing is done once the reader has gone, except for a wait that is interrupted, and to close the line. -/
def Ends (log : List Act) : Prop := ∃ w z, after log = w ++ z ∧ (w = [] ∨ ∃ h t, w = [.waited h t .interrupted]) ∧ (z = [] ∨ ∃ h ok, z = [.closed h ok])

/-- A command with the device, the line, the level and the level before as its arguments. -/
def invocation (command path : List Byte) (line : BitVec 32) (x : Bool × Option Bool) : List Byte :=
  command ++ [0x20#8] ++ path ++ [0x20#8] ++ Number.decimal line.toNat ++ [0x20#8] ++ Pintool.digits (some x.1) ++ [0x20#8] ++ Pintool.digits x.2

end Diminuto.Linetool
