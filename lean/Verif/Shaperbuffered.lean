import Verif.Stdio
import Verif.ShaperTool

/-!
# Model of the tool that shapes traffic with the functions of the C library

`Diminuto/bin/shaperbuffered.c`.  The input is a stream, see the model of those; the output is what the calls for the standard output accept, and how much of it arrives in the end, since that stream has a buffer too.  The clock is what each of its
readings returns.  The shaper is that of the other tool, `Diminuto/bin/shaper.c`, whose model of the loop that waits is used.  The rates in the report, which are floating point numbers, the messages, and the signal handlers are not modelled.
-/

namespace Diminuto.Shaperbuffered

open Diminuto.Throttle (Shaper Ticks)
open Diminuto.Stdio (Stream)
open Diminuto.ShaperTool (Options Contract)

/-- How the data is read and written, `Diminuto/bin/shaperbuffered.c:74-78`. -/
inductive Mode where
  | block
  | character
  | line
deriving DecidableEq

/-- What `input` comes to: data, a value of zero, or a value of minus one. -/
inductive Input where
  | data (bs : List Byte)
  | eof
  | error
deriving DecidableEq

/-- The end of `input`, `Diminuto/bin/shaperbuffered.c:142-154`.  An error that is none, which is when neither indicator is set, is an error too. -/
def judge (bs : List Byte) (s : Stream) : Input := if bs ≠ [] then .data bs else if s.eof then .eof else .error

/-- `input`, `Diminuto/bin/shaperbuffered.c:117-157`.  The buffer has the given size, and nothing is stored outside of it: `fgets` is given at most that, and is not called with what is not positive. -/
def input (m : Mode) (size : BitVec 64) (s : Stream) : Input × Stream :=
  match m with
  | .block =>
    let (bs, s) := Stdio.fread size.toNat s
    (judge bs s, s)
  | .character =>
    let (bs, s) := Stdio.fread 1 s
    (judge bs s, s)
  | .line =>
    match Stdio.fgets (Stdio.int size) s with
    | (none, s) => (judge [] s, s)
    | (some bs, s) => (judge (Stdio.text bs) s, s)

/-- What surrounds the program: the readings of the clock, for every call for the output whether it fails and how many bytes it has accepted if so, and how much of what has been accepted arrives. -/
structure World where
  clock : Nat → Nat
  fails : Nat → Option Nat
  arrives : Nat

/-- The state: the input, the shaper, the number of readings of the clock and of calls for the output, the statistics, what the calls for the output have accepted, and, which the program does not keep, the sizes of the blocks with the times at which
they have been released. -/
structure State where
  input : Stream
  shaper : Shaper
  readings : Nat
  outputs : Nat
  count : BitVec 64
  total : BitVec 64
  burst : BitVec 64
  fletcher : Fletcher.State
  checksum : BitVec 16
  out : List Byte
  commits : List (Nat × Nat)
deriving DecidableEq

/-- What a run comes to: it exits, it has not ended after the given number of turns or requests, or its behaviour is not defined. -/
inductive Outcome where
  | exit (status : Nat) (s : State)
  | running (s : State)
  | undefined
deriving DecidableEq

/-- The part between the input and the output, `Diminuto/bin/shaperbuffered.c:451-467`: the number of the reading of the clock that has been used at the end, and the shaper. -/
def release (w : World) (shaped : Bool) (requests : Nat) (size : BitVec 64) (s : State) : Option (Nat × Shaper) :=
  if shaped then (ShaperTool.shape w.clock requests s.readings s.shaper).map fun p => (p.1, (Throttle.shaperCommitn p.2 size).2)
  else some (s.readings, s.shaper)

/-- `output` and what follows it, `Diminuto/bin/shaperbuffered.c:159-200`, `:485-491`: on success it returns the size, which is not zero, and the program goes on; on failure the error indicator is set. -/
def output (w : World) (bs : List Byte) (s : State) : State ⊕ Outcome :=
  match w.fails s.outputs with
  | none => .inl { s with outputs := s.outputs + 1, out := s.out ++ bs }
  | some k => .inr (.exit 4 { s with outputs := s.outputs + 1, out := s.out ++ bs.take k })

/-- One turn of the loop, `Diminuto/bin/shaperbuffered.c:409-493`: the state with which the next one begins, or how the loop ends. -/
def turn (w : World) (m : Mode) (block : BitVec 64) (shaped : Bool) (requests : Nat) (s : State) : State ⊕ Outcome :=
  let s := { s with readings := s.readings + 1 }
  match input m block s.input with
  | (.eof, i) => .inr (.exit 0 { s with input := i })
  | (.error, i) => .inr (.exit 3 { s with input := i })
  | (.data bs, i) =>
    let size := BitVec.ofNat 64 bs.length
    let (checksum, fletcher) := Fletcher.fletcher16 bs s.fletcher
    let s := { s with input := i, count := s.count + 1, total := s.total + size, burst := if size > s.burst then size else s.burst, checksum := checksum, fletcher := fletcher }
    match release w shaped requests size s with
    | none => .inr (.running s)
    | some (reading, shaper) => output w bs { s with readings := reading + 1, shaper := shaper, commits := s.commits ++ [(w.clock reading, bs.length)] }

/-- The loop, `Diminuto/bin/shaperbuffered.c:409-493`. -/
def loop (w : World) (m : Mode) (block : BitVec 64) (shaped : Bool) (requests : Nat) : Nat → State → Outcome
  | 0, s => .running s
  | turns + 1, s =>
    match turn w m block shaped requests s with
    | .inr o => o
    | .inl s => loop w m block shaped requests turns s

/-- The state when the program begins, `Diminuto/bin/shaperbuffered.c:83-95`, `:202-229`. -/
def start (garbage : Shaper) (stdin : List (Option Byte)) : State :=
  { input := ⟨stdin, false, false⟩, shaper := garbage, readings := 0, outputs := 0, count := 0, total := 0, burst := 0, fletcher := ⟨0, 0⟩, checksum := 0, out := [], commits := [] }

/-- `main`, `Diminuto/bin/shaperbuffered.c:202-527`, once the arguments have been converted, with whether `malloc(3)` succeeds, and what is in the shaper on the stack.  Refused options are a status of 1.  The rates are reconciled as in
`Diminuto/bin/shaper.c`, `:328-340`, and so is the contract, `:398-405`; without a rate the traffic is not shaped, `:368`. -/
def main (w : World) (m : Mode) (o : Options) (memory : Bool) (garbage : Shaper) (stdin : List (Option Byte)) (requests turns : Nat) : Outcome :=
  let s := start garbage stdin
  if o.block = 0 then .exit 1 s
  else
    match ShaperTool.rates o with
    | none => .exit 1 s
    | some (peak, sustained, burst) =>
      if !memory then .exit 2 s
      else if peak > 0 && sustained > 0 && sustained ≤ peak then
        match ShaperTool.contract peak sustained burst o.jitter with
        | none => .undefined
        | some c =>
          loop w m o.block true requests turns
            { s with
              readings := 1
              shaper := Throttle.shaperInit garbage c.peakIncrement c.jitterTolerance c.sustainedIncrement c.burstTolerance (BitVec.ofNat 64 (w.clock 0)) }
      else loop w m o.block false requests turns { s with readings := 1 }

/-- What arrives at the other end of the standard output, `Diminuto/bin/shaperbuffered.c:485-526`: the program ends without looking whether its buffer has been written. -/
def delivered (w : World) (s : State) : List Byte := s.out.take w.arrives

end Diminuto.Shaperbuffered
