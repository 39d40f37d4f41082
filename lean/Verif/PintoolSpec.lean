import Verif.Pintool
import Verif.NumberSpec
import Verif.CueProps

/-!
# Specification: the tool that manipulates pins
-/

namespace Diminuto.Pintool

open Diminuto.Number (Reads)

/-! ## Streams and pins -/

/-- The stream that is open: the pin that it is for, whether it is for output, and its number. -/
abbrev Stream := Option (Int × Bool × Nat)

/-- The stream that is open after what has been seen. -/
def stream : Stream → List Act → Stream
  | cur, [] => cur
  | _, .opened p o h :: r => stream (some (p, o, h)) r
  | _, .closed _ _ :: r => stream none r
  | cur, _ :: r => stream cur r

/-- What is done concerns one pin: it is the one that is configured and opened, and it is the one of the stream, of which there is never more than one. -/
def Concerns (p : Int) : Stream → List Act → Prop
  | _, [] => True
  | cur, .configured q _ _ :: r => q = p ∧ Concerns p cur r
  | cur, .opened q o h :: r => q = p ∧ cur = none ∧ Concerns p (some (q, o, h)) r
  | cur, .put h _ _ :: r => (∃ o, cur = some (p, o, h)) ∧ Concerns p cur r
  | cur, .got h _ :: r => (∃ o, cur = some (p, o, h)) ∧ Concerns p cur r
  | cur, .waited h _ _ :: r => (∃ o, cur = some (p, o, h)) ∧ Concerns p cur r
  | cur, .slept _ :: r => Concerns p cur r
  | cur, .daemonized _ :: r => Concerns p cur r
  | cur, .closed h _ :: r => (∃ q o, cur = some (q, o, h)) ∧ Concerns p none r
  | cur, .printed _ :: r => Concerns p cur r
  | cur, .ran _ _ :: r => Concerns p cur r

/-- There is never more than one stream, and what is used and closed is the one that is open. -/
def Orderly : Stream → List Act → Prop
  | _, [] => True
  | cur, .opened q o h :: r => cur = none ∧ Orderly (some (q, o, h)) r
  | cur, .put h _ _ :: r => (∃ p o, cur = some (p, o, h)) ∧ Orderly cur r
  | cur, .got h _ :: r => (∃ p o, cur = some (p, o, h)) ∧ Orderly cur r
  | cur, .waited h _ _ :: r => (∃ p o, cur = some (p, o, h)) ∧ Orderly cur r
  | cur, .slept _ :: r => Orderly cur r
  | cur, .daemonized _ :: r => Orderly cur r
  | cur, .closed h _ :: r => (∃ p o, cur = some (p, o, h)) ∧ Orderly none r
  | cur, .configured _ _ _ :: r => Orderly cur r
  | cur, .printed _ :: r => Orderly cur r
  | cur, .ran _ _ :: r => Orderly cur r

/-- The argument of the last option that selects a pin. -/
def selected : List Opt → Option (List Byte)
  | [] => none
  | .pin text :: r => (selected r).or (some text)
  | _ :: r => selected r

/-- An argument is the number of a pin. -/
def IsPin (text : List Byte) (n : Nat) : Prop := Reads text false n [] ∧ n < 2 ^ 31

/-- Options have been dealt with. -/
inductive Reaches {σ : Type} (a : Api σ) (patience : Nat) (k : σ) : List Opt → State σ → Prop
  | start : Reaches a patience k [] (start k)
  | step {opts : List Opt} {o : Opt} {s s' : State σ} : Reaches a patience k opts s → step a patience o s = .next s' → Reaches a patience k (opts ++ [o]) s'

/-- What an option leads to: to go on, to stop, or to be still in a loop. -/
def Leads {σ : Type} (f : Flow σ) (s : State σ) : Prop := f = .next s ∨ (∃ code, f = .stop code s) ∨ f = .busy s

/-- What was done has not failed. -/
def Fine : Act → Prop
  | .configured _ _ ok => ok = true
  | .put _ _ ok => ok = true
  | .got _ v => 0 ≤ v
  | .ran _ ok => ok = true
  | .daemonized ok => ok = true
  | .waited _ _ ok => ok = true
  | _ => True

/-! ## Values -/

/-- The pins of a machine on which everything works: their values, and the streams, with their pins and whether they are for output.  A stream can be written to or read, but not both, as in `fopen(3)` with `"w"` or `"r"`. -/
structure Gpio where
  value : Int → Bool
  streams : List (Nat × Int × Bool)
  next : Nat

/-- The value of a pin is changed. -/
def Gpio.set (g : Gpio) (p : Int) (b : Bool) : Gpio := { g with value := fun q => if q = p then b else g.value q }

/-- The machine. -/
def gpio : Api Gpio where
  configure c p g := match c with | .initialize b => (true, g.set p b) | _ => (true, g)
  open_ p o g := (some g.next, { g with streams := (g.next, p, o) :: g.streams, next := g.next + 1 })
  put h b g := match g.streams.find? (·.1 = h) with | some (_, p, true) => (true, g.set p b) | _ => (false, g)
  get h g := match g.streams.find? (·.1 = h) with | some (_, p, false) => (if g.value p then 1 else 0, g) | _ => (-1, g)
  close h g := (true, { g with streams := g.streams.filter (·.1 ≠ h) })
  wait _ _ g := (some true, g)
  delay _ g := g
  system _ g := (true, g)
  daemon g := (true, g)
  root _ g := g

/-- What is asked for. -/
inductive Command where
  | select (n : Nat)
  | read
  | write (b : Bool)
  | initialize (b : Bool)
  | configure
  | test (nonzero : Bool)
  | quiet
deriving DecidableEq

/-- Options stand for commands. -/
def Spelled : Opt → Command → Prop
  | .pin text, .select n => IsPin text n
  | .read, .read => True
  | .write b, .write b' => b = b'
  | .writeText text, .write b => ∃ n, Reads text false n [] ∧ n < 2 ^ 64 ∧ b = (n != 0)
  | .configure (.initialize b), .initialize b' => b = b'
  | .configure (.edge _), .configure => True
  | .configure (.active _), .configure => True
  | .configure (.direction _), .configure => True
  | .configure .export, .configure => True
  | .configure .unexport, .configure => True
  | .configure .ignore, .configure => True
  | .test b, .test b' => b = b'
  | .delay text, .quiet => ∃ n, Reads text false n [] ∧ n < 2 ^ 64
  | .first, .quiet => True
  | .unique, .quiet => True
  | .command _, .quiet => True
  | .root _, .quiet => True
  | .daemon, .quiet => True
  | .debug, .quiet => True
  | .menu, .quiet => True
  | _, _ => False

/-- Lists of options stand for lists of commands. -/
inductive Line : List Opt → List Command → Prop
  | nil : Line [] []
  | cons {o : Opt} {c : Command} {os : List Opt} {cs : List Command} : Spelled o c → Line os cs → Line (o :: os) (c :: cs)

/-- What the user knows: the pin, the values of all pins, the last value that was read or written, and what has been printed. -/
structure Account where
  pin : Int
  value : Int → Bool
  last : Bool
  out : List Bool

/-- What commands mean. -/
def meaning : List Command → Account → Account
  | [], x => x
  | .select n :: r, x => meaning r { x with pin := n }
  | .read :: r, x => meaning r { x with last := x.value x.pin, out := x.out ++ [x.value x.pin] }
  | .write b :: r, x => meaning r { x with last := b, value := fun q => if q = x.pin then b else x.value q }
  | .initialize b :: r, x => meaning r { x with value := fun q => if q = x.pin then b else x.value q }
  | .configure :: r, x => meaning r x
  | .test nonzero :: r, x => if x.last = nonzero then meaning r x else x
  | .quiet :: r, x => meaning r x

/-- A pin is selected before anything is done with it, and no pin is both read and written before another is selected: the mode is that of the stream that is open. -/
def Steady (selected : Bool) (mode : Option Bool) : List Command → Prop
  | [] => True
  | .select _ :: r => Steady true none r
  | .read :: r => selected = true ∧ mode ≠ some true ∧ Steady selected (some false) r
  | .write _ :: r => selected = true ∧ mode ≠ some false ∧ Steady selected (some true) r
  | .initialize _ :: r => selected = true ∧ Steady selected mode r
  | .configure :: r => selected = true ∧ Steady selected mode r
  | .test _ :: r => Steady selected mode r
  | .quiet :: r => Steady selected mode r

/-- What has been printed. -/
def printed (log : List Act) : List Bool := log.filterMap fun e => match e with | .printed b => some b | _ => none

/-- What has been read. -/
def got (log : List Act) : List Int := log.filterMap fun e => match e with | .got _ v => some v | _ => none

/-- What has been run. -/
def ran (log : List Act) : List (List Byte) := log.filterMap fun e => match e with | .ran t _ => some t | _ => none

/-! ## Monitors -/

/-- The level that three samples in a row have agreed on last; the first sample counts for three. -/
def settled (first : Int) (samples : List Int) : Bool := (Cue.latestRun (Cue.history first samples)).getD false

/-- The levels that have settled after each sample, those before having been passed. -/
def debounced (first : Int) : List Int → List Int → List Bool
  | _, [] => []
  | past, v :: r => settled first (past ++ [v]) :: debounced first (past ++ [v]) r

/-- What has been read without a failure. -/
def samples (log : List Act) : List Int := (got log).filter (0 ≤ ·)

/-- The levels that a monitor reports, with those before each: all, or only those that differ from the one before. -/
def reported (unique : Bool) : Option Bool → List Bool → List (Bool × Option Bool)
  | _, [] => []
  | prior, b :: r => if unique ∧ prior = some b then reported unique (some b) r else (b, prior) :: reported unique (some b) r

/-- What is done after the first sample. -/
def later : List Act → List Act
  | [] => []
  | .got _ _ :: r => r
  | _ :: r => later r

/-- Each sample is taken after a delay. -/
def Paced (t : BitVec 64) : List Act → Prop
  | [] => True
  | .slept t' :: .got _ _ :: r => t' = t ∧ Paced t r
  | .slept _ :: _ => False
  | .got _ _ :: _ => False
  | _ :: r => Paced t r

/-- Each sample is taken after a wait. -/
def Awaits (t : Int) : List Act → Prop
  | [] => True
  | .waited _ t' _ :: .got _ _ :: r => t' = t ∧ Awaits t r
  | .waited _ t' _ :: r => t' = t ∧ Awaits t r
  | .got _ _ :: _ => False
  | _ :: r => Awaits t r

/-- The level that is printed at the beginning, if it is asked for. -/
def initial (first : Bool) (levels : List Bool) : List Bool := if first then levels.take 1 else []

/-- What is reported after that. -/
def following (first unique : Bool) (levels : List Bool) : List (Bool × Option Bool) := if first then reported unique levels.head? levels.tail else reported unique none levels

/-- A level, or that there is none, as the text of a number. -/
def digits : Option Bool → List Byte
  | none => [0x2d#8, 0x31#8]
  | some false => [0x30#8]
  | some true => [0x31#8]

/-- A command with the pin, the level and the level before as its arguments. -/
def invocation (command : List Byte) (pin : Int) (x : Bool × Option Bool) : List Byte :=
  command ++ [0x20#8] ++ Number.decimal pin.toNat ++ [0x20#8] ++ digits (some x.1) ++ [0x20#8] ++ digits x.2

end Diminuto.Pintool
