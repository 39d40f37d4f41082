import Verif.Fd
import Verif.Throttle
import Verif.Time

/-!
# Model of the tool that shapes traffic from its standard input to its standard output

`Diminuto/bin/shaper.c`.  The kernel is a list of what it has for the reader, and a list of what it does with the writer, as in the model of `diminuto_fd`.  The clock is what each of its readings returns, as
an unbounded number of ticks; the delays and yields only show in it.  The rates in the report, which are floating point numbers, the messages, and the signal handlers are not modelled.
-/

namespace Diminuto.ShaperTool

open Diminuto.Fd (Source Sink)
open Diminuto.Throttle (Shaper Ticks)

/-- The options, `Diminuto/bin/shaper.c:151-222`, after they have been converted: the size of the block, the peak rate, the sustained rate, the maximum burst size, and the jitter tolerance in microseconds.  A rate of zero is
one that has not been given: one that has been given as zero is refused. -/
structure Options where
  block : BitVec 64
  peak : BitVec 64
  sustained : BitVec 64
  burst : BitVec 64
  jitter : BitVec 64
deriving DecidableEq

/-- The options without any arguments, `Diminuto/bin/shaper.c:73-74`, `:113-115`, `:144-145`. -/
def defaults : Options := ⟨512, 0, 0, 0, 0⟩

/-- The rates and the maximum burst size that are used, `Diminuto/bin/shaper.c:224-236`; nothing if they are refused. -/
def rates (o : Options) : Option (BitVec 64 × BitVec 64 × BitVec 64) :=
  if o.sustained = 0 then some (o.peak, o.peak, 0)
  else if o.peak = 0 then some (o.sustained, o.sustained, 0)
  else if o.burst = 0 then some (o.sustained, o.sustained, 0)
  else if o.sustained > o.peak then none
  else some (o.peak, o.sustained, o.burst)

/-- The parameters of the shaper. -/
structure Contract where
  peakIncrement : Ticks
  jitterTolerance : Ticks
  sustainedIncrement : Ticks
  burstTolerance : Ticks
deriving DecidableEq

/-- The contract, `Diminuto/bin/shaper.c:269-273`; nothing if the conversion of the jitter overflows. -/
def contract (peak sustained burst jitter : BitVec 64) : Option Contract :=
  (Time.units2ticks jitter.toInt 1000000).map fun j =>
    let p := Throttle.interarrivalTime peak 1 1000000000
    let s := Throttle.interarrivalTime sustained 1 1000000000
    { peakIncrement := p, jitterTolerance := BitVec.ofInt 64 j, sustainedIncrement := s, burstTolerance := Throttle.burstTolerance p (BitVec.ofInt 64 j) s burst }

/-- What surrounds the program: the readings of the clock, and whether the reading of the standard input in the given turn of the loop, if it fails, has been interrupted. -/
structure World where
  clock : Nat → Nat
  interrupted : Nat → Bool

/-- The state: the kernel on both sides, the buffer, the shaper, the number of readings of the clock and of turns, the statistics, what has been written, and, which the program does not keep, the commits with their times
and sizes. -/
structure State where
  input : List Source
  output : List Sink
  buffer : List Byte
  shaper : Shaper
  readings : Nat
  turns : Nat
  count : BitVec 64
  total : BitVec 64
  burst : BitVec 64
  fletcher : Fletcher.State
  checksum : BitVec 16
  out : List Byte
  commits : List (Nat × Nat)
deriving DecidableEq

/-- What a run comes to: it exits, it waits forever, it has not ended after the given number of turns or requests, or its behaviour is not defined. -/
inductive Outcome where
  | exit (status : Nat) (s : State)
  | blocks (s : State)
  | running (s : State)
  | undefined
deriving DecidableEq

/-- The loop that waits, `Diminuto/bin/shaper.c:326-339`: the number of the reading of the clock that has been used at the end, and the shaper.  The interval is unsigned, so that it is not greater than zero only if it is zero. -/
def shape (clock : Nat → Nat) : Nat → Nat → Shaper → Option (Nat × Shaper)
  | 0, _, _ => none
  | requests + 1, reading, shaper =>
    let (interval, shaper) := Throttle.shaperRequest shaper (BitVec.ofNat 64 (clock reading))
    if interval = 0 then some (reading, shaper) else shape clock requests (reading + 1) shaper

/-- One turn of the loop, `Diminuto/bin/shaper.c:283-369`: the state with which the next one begins, or how the loop ends. -/
def turn (w : World) (block : BitVec 64) (requests : Nat) (s : State) : State ⊕ Outcome :=
  let s := { s with readings := s.readings + 1, turns := s.turns + 1 }
  match Fd.readGeneric s.input s.buffer 1 block with
  | .undefined => .inr .undefined
  | .blocks => .inr (.blocks s)
  | .done g =>
    let s := { s with input := g.kernel, buffer := g.mem }
    if g.ret > 0 then
      let size := BitVec.ofInt 64 g.ret
      let (checksum, fletcher) := Fletcher.fletcher16 (s.buffer.take size.toNat) s.fletcher
      let s := { s with count := s.count + 1, total := s.total + size, burst := if size > s.burst then size else s.burst, checksum := checksum, fletcher := fletcher }
      match shape w.clock requests s.readings s.shaper with
      | none => .inr (.running s)
      | some (reading, shaper) =>
        let s := { s with readings := reading + 1, shaper := (Throttle.shaperCommitn shaper size).2, commits := s.commits ++ [(w.clock reading, size.toNat)] }
        match Fd.write s.output s.buffer size with
        | .undefined => .inr .undefined
        | .blocks => .inr (.blocks s)
        | .done p =>
          let s := { s with output := p.kernel, out := s.out ++ p.out }
          if p.ret > 0 then .inl s
          else if p.ret = 0 then .inr (.exit 0 s)
          else .inr (.exit 4 s)
    else if g.ret = 0 then .inr (.exit 0 s)
    else if w.interrupted s.turns then .inl s
    else .inr (.exit 3 s)

/-- The loop, `Diminuto/bin/shaper.c:281-371`. -/
def loop (w : World) (block : BitVec 64) (requests : Nat) : Nat → State → Outcome
  | 0, s => .running s
  | turns + 1, s =>
    match turn w block requests s with
    | .inr o => o
    | .inl s => loop w block requests turns s

/-- `main`, `Diminuto/bin/shaper.c:109-407`, with the contents of the memory that `malloc(3)` returns, or nothing if it fails, and what is in the shaper on the stack.  Refused options are a status of 1. -/
def main (w : World) (o : Options) (memory : Option (List Byte)) (garbage : Shaper) (input : List Source) (output : List Sink) (requests turns : Nat) : Outcome :=
  let start : State :=
    { input := input, output := output, buffer := [], shaper := garbage, readings := 0, turns := 0, count := 0, total := 0, burst := 0, fletcher := ⟨0, 0⟩, checksum := 0, out := [], commits := [] }
  if o.block = 0 then .exit 1 start
  else
    match rates o with
    | none => .exit 1 start
    | some (peak, sustained, burst) =>
      match memory with
      | none => .exit 2 start
      | some buffer =>
        match contract peak sustained burst o.jitter with
        | none => .undefined
        | some c =>
          loop w o.block requests turns
            { start with
              buffer := buffer
              readings := 1
              shaper := Throttle.shaperInit garbage c.peakIncrement c.jitterTolerance c.sustainedIncrement c.burstTolerance (BitVec.ofNat 64 (w.clock 0)) }

end Diminuto.ShaperTool
