import Verif.Serialtool
import Verif.NumberSpec
import Verif.SerialSpec

/-!
# Specification: the tool for serial ports
-/

namespace Diminuto.Serialtool

open Diminuto.Number (Reads)

/-! ## The options -/

/-- What the last of the options that have a say says. -/
def latest {α : Type} (says : Opt → Option α) : List Opt → Option α
  | [] => none
  | o :: r => (latest says r).or (says o)

/-- The value of an argument that is to be a number: what is left after the number does not matter, and without a number it is zero. -/
def Means (text : List Byte) (v : Nat) : Prop :=
  (∃ negative n r, Reads text negative n r ∧ v = if n < 2 ^ 64 then (if negative then (2 ^ 64 - n) % 2 ^ 64 else n) else 2 ^ 64 - 1) ∨ ((∀ negative n r, ¬ Reads text negative n r) ∧ v = 0)

/-- `-b`. -/
def saysRate : Opt → Option (List Byte)
  | .rate text => some text
  | _ => none

/-- `-5`, `-6`, `-7` and `-8`. -/
def saysData : Opt → Option Int
  | .five => some 5
  | .six => some 6
  | .seven => some 7
  | .eight => some 8
  | _ => none

/-- `-n`, `-o` and `-e`. -/
def saysParity : Opt → Option Int
  | .parityless => some 0
  | .odd => some 1
  | .even => some 2
  | _ => none

/-- `-1` and `-2`. -/
def saysStop : Opt → Option Int
  | .one => some 1
  | .two => some 2
  | _ => none

/-- `-l`, `-m` and `-c`. -/
def saysModem : Opt → Option Bool
  | .direct => some false
  | .modem => some true
  | .carrier => some true
  | _ => none

/-- `-D`. -/
def saysDevice : Opt → Option (List Byte)
  | .device text => some text
  | _ => none

/-- `-F`, and `-N`, which takes it back. -/
def saysForward : Opt → Option Bool
  | .forward => some true
  | .interactive => some false
  | _ => none

/-- `-B`, and `-N`, which takes it back. -/
def saysBackward : Opt → Option Bool
  | .backward => some true
  | .interactive => some false
  | _ => none

/-- `-i`, and `-N`, which takes it back. -/
def saysNoinput : Opt → Option Bool
  | .noinput => some true
  | .interactive => some false
  | _ => none

/-- `-t`. -/
def saysSeconds : Opt → Option (List Byte)
  | .seconds text => some text
  | _ => none

/-- `-I`. -/
def saysMaximum : Opt → Option (List Byte)
  | .maximum text => some text
  | _ => none

/-- `-M`. -/
def saysModulo : Opt → Option (List Byte)
  | .modulo text => some text
  | _ => none

/-- What has been asked for: a text that is not a number asks for zero, a rate is an `int`, and seconds are an `unsigned int`. -/
structure Asked (opts : List Opt) (c : Config) : Prop where
  rate : match latest saysRate opts with
    | none => c.bitspersecond = 115200
    | some text => ∃ v : Nat, Means text v ∧ c.bitspersecond = (v : Int).bmod (2 ^ 32)
  databits : c.databits = (latest saysData opts).getD 8
  parity : c.paritybit = (latest saysParity opts).getD 0
  stopbits : c.stopbits = (latest saysStop opts).getD 1
  modem : c.modemcontrol = (latest saysModem opts).getD false
  software : c.xonxoff = decide (Opt.software ∈ opts)
  hardware : c.rtscts = decide (Opt.hardware ∈ opts)
  carrier : c.carrierdetect = decide (Opt.carrier ∈ opts)
  device : c.device = (latest saysDevice opts).getD [47, 100, 101, 118, 47, 110, 117, 108, 108]
  forward : c.forward = (latest saysForward opts).getD false
  backward : c.backward = (latest saysBackward opts).getD false
  printable : c.printable = decide (Opt.printable ∈ opts)
  seconds : match latest saysSeconds opts with
    | none => c.seconds.toNat = 10
    | some text => ∃ v : Nat, Means text v ∧ c.seconds.toNat = v % 2 ^ 32
  maximum : match latest saysMaximum opts with
    | none => c.maximum = 512
    | some text => Means text c.maximum
  noinput : c.noinput = (latest saysNoinput opts).getD false
  raw : c.rawterminal = decide (Opt.raw ∈ opts)
  nonblocking : c.nonblocking = decide (Opt.nonblocking ∈ opts ∨ Opt.interactive ∈ opts)
  terminal : c.onlyaterminal = decide (Opt.terminal ∈ opts)
  proceed : c.proceed = decide (Opt.proceed ∈ opts)
  modulo : match latest saysModulo opts with
    | none => c.modulo = 0
    | some text => Means text c.modulo

/-! ## What is done is what is in the log -/

/-- What is in the log has really been done, one after the other, by the functions that surround the program. -/
inductive Plays {σ : Type} (a : Api σ) (c : Config) : List Act → σ → σ → Prop
  | nil {k : σ} : Plays a c [] k k
  | got {l : List Act} {k k' k'' : σ} {r : Option Byte} : Plays a c l k k' → a.getc (if c.forward then 0 else c.seconds) k' = (r, k'') → Plays a c (l ++ [.got r]) k k''
  | put {l : List Act} {k k' k'' : σ} {b : Byte} {ok : Bool} : Plays a c l k k' → a.putc b k' = (ok, k'') → Plays a c (l ++ [.put b ok]) k k''
  | mismatch {l : List Act} {k k' : σ} {b b' : Byte} : Plays a c l k k' → Plays a c (l ++ [.mismatch b b']) k k'
  | curious {l : List Act} {k k' : σ} {n : Nat} : Plays a c l k k' → (c.forward = false → a.alarmed k' = false) → a.done k' = false → a.curious k' = true → Plays a c (l ++ [.report .curious n]) k (a.calm k')
  | modulo {l : List Act} {k k' : σ} {n : Nat} : Plays a c l k k' → Plays a c (l ++ [.report .modulo n]) k k'
  | done {l : List Act} {k k' : σ} {n : Nat} : Plays a c l k k' → (c.forward = false → a.alarmed k' = false) → a.done k' = true → Plays a c (l ++ [.report .done n]) k k'
  | eof {l : List Act} {k k' : σ} {n : Nat} : Plays a c l k k' → (c.forward = false → a.alarmed k' = false) → a.done k' = false → a.curious k' = false → Plays a c (l ++ [.report .eof n]) k k'
  | timeout {l : List Act} {k k' : σ} {n : Nat} : Plays a c l k k' → a.alarmed k' = true → Plays a c (l ++ [.report .timeout n]) k k'
  | status {l : List Act} {k k' k'' : σ} {r : Int} {e : Option Serial.Errno} : Plays a c l k k' → Serial.status a.port k' = ((r, e), k'') → Plays a c (l ++ [.status r]) k k''
  | hold {l : List Act} {k k' k'' : σ} {r : Int} {e : Option Serial.Errno} : Plays a c l k k' → Serial.wait a.port k' = ((r, e), k'') → Plays a c (l ++ [.hold (decide (0 ≤ r))]) k k''
  | waited {l : List Act} {k k' k'' : σ} {r : Option (List End)} : Plays a c l k k' → a.wait k' = (r, k'') → Plays a c (l ++ [.waited r]) k k''
  | read {l : List Act} {k k' k'' : σ} {e : End} {r : Option (List Byte)} : Plays a c l k k' → a.read e c.maximum k' = (r, k'') → Plays a c (l ++ [.read e r]) k k''
  | wrote {l : List Act} {k k' k'' : σ} {e : End} {data : List Byte} {n : Option Nat} : Plays a c l k k' → a.write e data k' = (n, k'') → Plays a c (l ++ [.wrote e data n]) k k''

/-! ## Loop back -/

/-- The number of characters is reported if it is a multiple. -/
def due (modulo n : Nat) : List Act := if modulo ≠ 0 ∧ modulo ∣ n then [.report .modulo n] else []

/-- `-F`, `n` characters so far: each is sent back at once, and nothing else is. -/
inductive Echo (modulo : Nat) : Nat → List Act → Prop
  | start : Echo modulo 0 []
  | pass {n : Nat} {l : List Act} {b : Byte} {ok : Bool} : Echo modulo n l → Echo modulo (n + 1) (l ++ [.got (some b), .put b ok] ++ due modulo (n + 1))
  | curious {n : Nat} {l : List Act} : Echo modulo n l → Echo modulo n (l ++ [.got none, .report .curious n])

/-- `-F` has come to an end: there is nothing more to receive, because of a signal or not. -/
def EchoEnds (modulo n : Nat) (l : List Act) : Prop := ∃ l', Echo modulo n l' ∧ (l = l' ++ [.got none, .report .done n] ∨ l = l' ++ [.got none, .report .eof n])

/-- The characters that are sent by `-B`: all of them in turn, or those that are printable and not a space. -/
def pattern (printable : Bool) (i : Nat) : Byte := if printable then BitVec.ofNat 8 (33 + i % 94) else BitVec.ofNat 8 (i % 256)

/-- `-B`, `n` characters have come back so far, and whether there is one on its way: each is sent after the one before has come back. -/
inductive Test (printable : Bool) (modulo : Nat) : Bool → Nat → List Act → Prop
  | start : Test printable modulo false 0 []
  | send {n : Nat} {l : List Act} {ok : Bool} : Test printable modulo false n l → Test printable modulo true n (l ++ [.put (pattern printable n) ok])
  | back {n : Nat} {l : List Act} : Test printable modulo true n l → Test printable modulo false (n + 1) (l ++ [.got (some (pattern printable n))] ++ due modulo (n + 1))
  | curious {n : Nat} {l : List Act} : Test printable modulo true n l → Test printable modulo true n (l ++ [.got none, .report .curious n])

/-- `-B` has come to an end: another character has come, or none. -/
def TestEnds (printable : Bool) (modulo n : Nat) (l : List Act) : Prop :=
  ∃ l', Test printable modulo true n l' ∧ ((∃ b, b ≠ pattern printable n ∧ l = l' ++ [.got (some b), .mismatch b (pattern printable n)]) ∨
    ∃ w ∈ [Why.timeout, Why.done, Why.eof], l = l' ++ [.got none, .report w n])

/-- A line that gives back what it has been given, without a failure, and without signals. -/
structure Loopback {σ : Type} (a : Api σ) (line : σ → Option Byte) : Prop where
  quiet : ∀ k, a.done k = false
  put : ∀ b k, (a.putc b k).1 = true ∧ line (a.putc b k).2 = some b
  got : ∀ t k, (a.getc t k).1 = line k

/-! ## Interactive -/

/-- The interactive mode so far: whether the standard input is still read, which of those that are ready have not yet been dealt with, and what has been done.  Whatever has been read has been written to the other end, all of it, before anything else is done. -/
inductive Copies (c : Config) : Bool → List End → List Act → Prop
  | start : Copies c (!c.noinput) [] []
  | hold {i : Bool} {l : List Act} : Copies c i [] l → c.carrierdetect = true → Copies c i [] (l ++ [.status 0, .hold true])
  | wait {i : Bool} {l : List Act} {ready : List End} : Copies c i [] l → c.carrierdetect = false → ready ≠ [] → Copies c i ready (l ++ [.waited (some ready)])
  | carrier {i : Bool} {l : List Act} {ready : List End} {r : Int} : Copies c i [] l → c.carrierdetect = true → 0 < r → ready ≠ [] → Copies c i ready (l ++ [.status r, .waited (some ready)])
  | skip {r : List End} {l : List Act} : Copies c false (.terminal :: r) l → Copies c false r l
  | copy {i : Bool} {e : End} {r : List End} {l : List Act} {data : List Byte} : Copies c i (e :: r) l → (e = .terminal → i = true) → data ≠ [] → data.length ≤ c.maximum →
      Copies c i r (l ++ [.read e (some data), .wrote e.other data (some data.length)])
  | ended {r : List End} {l : List Act} : Copies c true (.terminal :: r) l → c.proceed = true → Copies c false r (l ++ [.read .terminal (some [])])

/-- The interactive mode comes to an end: waiting failed or found nothing, the device has ended, or the standard input has without `-P`. -/
def Quits (c : Config) (l : List Act) : Prop :=
  (∃ i l' w, Copies c i [] l' ∧ (w = none ∨ w = some []) ∧ ((c.carrierdetect = false ∧ l = l' ++ [.waited w]) ∨ (c.carrierdetect = true ∧ ∃ r : Int, 0 < r ∧ l = l' ++ [.status r, .waited w]))) ∨
  (∃ i r l', Copies c i (.device :: r) l' ∧ l = l' ++ [.read .device (some [])]) ∨
  (∃ r l', Copies c true (.terminal :: r) l' ∧ c.proceed = false ∧ l = l' ++ [.read .terminal (some [])])

/-- The interactive mode fails: the carrier cannot be told or waited for, or data cannot be read, are more than there is room for, or cannot all be written. -/
def Fails (c : Config) (l : List Act) : Prop :=
  (∃ i l', Copies c i [] l' ∧ c.carrierdetect = true ∧ ((∃ r : Int, r < 0 ∧ l = l' ++ [.status r]) ∨ l = l' ++ [.status 0, .hold false])) ∨
  ∃ i e r l', Copies c i (e :: r) l' ∧ (e = .terminal → i = true) ∧
    (l = l' ++ [.read e none] ∨ (∃ data, c.maximum < data.length ∧ l = l' ++ [.read e (some data)]) ∨
      ∃ data n, data ≠ [] ∧ data.length ≤ c.maximum ∧ n ≠ some data.length ∧ l = l' ++ [.read e (some data), .wrote e.other data n])

/-- What has been read from an end. -/
def incoming (e : End) : List Act → List Byte
  | [] => []
  | .read e' (some data) :: r => (if e' = e then data else []) ++ incoming e r
  | _ :: r => incoming e r

/-- What has been written to an end. -/
def outgoing (e : End) : List Act → List Byte
  | [] => []
  | .wrote e' data (some n) :: r => (if e' = e then data.take n else []) ++ outgoing e r
  | _ :: r => outgoing e r

/-! ## A port to try it on -/

/-- What is behind the device: its settings, what will be received from it, and whether signals have been caught. -/
structure Bench where
  port : Serial.Port
  feed : List (Option Byte)
  sent : List Byte
  done : Bool
  curious : Bool

/-- A bench on which everything works, but that the characters are received which are given. -/
def bench : Api Bench where
  port := {
    isatty := fun k => k.port.1
    get := fun k => (some k.port.2, k)
    set := fun t k => (true, { k with port := (k.port.1, t) })
    flush := fun k => (true, k)
    wait := fun k => (true, k)
    lines := fun k => (some 0x40#32, k)
    pending := fun k => (some 0#32, k) }
  open_ := fun _ _ k => (true, k)
  flags := fun _ k => (true, k)
  exclusive := fun k => (true, k)
  flush := fun k => (true, k)
  raw := fun k => (true, k)
  stream := fun k => (true, k)
  unbuffer := fun k => (true, k)
  getc := fun _ k => match k.feed with
    | [] => (none, k)
    | b :: r => (b, { k with feed := r })
  putc := fun b k => (true, { k with sent := k.sent ++ [b] })
  wait := fun k => (some [.device], k)
  read := fun e _ k => match e, k.feed with
    | .device, some b :: r => (some [b], { k with feed := r })
    | .device, _ => (some [], k)
    | .terminal, _ => (some [], k)
  write := fun _ data k => (some data.length, { k with sent := k.sent ++ data })
  done := Bench.done
  curious := Bench.curious
  alarmed := fun _ => false
  calm := fun k => { k with curious := false }

/-- At the beginning. -/
def Bench.start (tty : Bool) (feed : List (Option Byte)) : Bench := ⟨(tty, Serial.opened), feed, [], false, false⟩

end Diminuto.Serialtool
