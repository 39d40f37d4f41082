import Verif.Fd
import Verif.Meter

/-!
# Model of the tool that measures what goes from its standard input to its standard output

`Diminuto/bin/meter.c`.  The kernel is a list of what it has for the reader, and a list of what it does with the writer, as in the model of `diminuto_fd`.  The signals are those that come while the tool waits for input, which interrupt the reading, and those that
come at any other time; that a signal interrupts the writing is a failure of the writing.  The counters of the signals, of which only matters whether they are zero, are another model.  The options other than the size of the block only concern
messages; the verbose one is kept since it reports.
-/

namespace Diminuto.Metertool

open Diminuto.Fd (Source Sink)

/-- The signals that are handled, `Diminuto/bin/meter.c:117-131`. -/
inductive Sig where
  | hup
  | int
  | term
  | pipe
deriving DecidableEq

/-- What surrounds the program: the readings of the clock, and for every turn of the loop the signals that have interrupted the reading, if it fails and there are any, and the signals that come until the end of the turn. -/
structure World where
  clock : Nat → BitVec 64
  interrupts : Nat → List Sig
  arrives : Nat → List Sig
  rate : Meter.Rating

/-- The state: the kernel on both sides, the buffer, the meter, the number of turns, the signals that have been counted and not been checked, what has been written, the meter at every report, and, which the program does not keep, the times and the sizes of
what has been read. -/
structure State where
  input : List Source
  output : List Sink
  buffer : List Byte
  meter : Meter.Meter
  turns : Nat
  pending : List Sig
  out : List Byte
  reports : List Meter.Meter
  history : List (BitVec 64 × BitVec 64)
deriving DecidableEq

/-- What a run comes to: it exits, it waits forever, it has not ended after the given number of turns, or its behaviour is not defined. -/
inductive Outcome where
  | exit (status : Nat) (s : State)
  | blocks (s : State)
  | running (s : State)
  | undefined
deriving DecidableEq

/-- How a turn of the loop ends: with another one, with the end of the loop and an exit status, or not at all. -/
inductive Next where
  | again (s : State)
  | stop (status : Nat) (s : State)
  | never (o : Outcome)
deriving DecidableEq

/-- The checks at the end of a turn, `Diminuto/bin/meter.c:173-193`: the ones after the first that breaks are not made. -/
def checks (verbose : Bool) (s : State) : Next :=
  if .int ∈ s.pending then .stop 0 { s with pending := s.pending.filter (· ≠ .int) }
  else if .term ∈ s.pending then .stop 0 { s with pending := s.pending.filter (· ≠ .term) }
  else if .pipe ∈ s.pending then .stop 0 { s with pending := s.pending.filter (· ≠ .pipe) }
  else
    let hangup := decide (.hup ∈ s.pending)
    let s := { s with pending := s.pending.filter (· ≠ .hup) }
    .again (if hangup || verbose then { s with reports := s.reports ++ [s.meter] } else s)

/-- One turn of the loop, `Diminuto/bin/meter.c:142-195`. -/
def turn (w : World) (verbose : Bool) (block : BitVec 64) (s : State) : Next :=
  let s := { s with turns := s.turns + 1 }
  match Fd.readGeneric s.input s.buffer 1 block with
  | .undefined => .never .undefined
  | .blocks => .never (.blocks s)
  | .done g =>
    let s := { s with input := g.kernel, buffer := g.mem }
    if g.ret > 0 then
      let size := BitVec.ofInt 64 g.ret
      let now := w.clock s.turns
      let s := { s with meter := (Meter.add w.rate s.meter now size).1, history := s.history ++ [(now, size)] }
      match Fd.write s.output s.buffer size with
      | .undefined => .never .undefined
      | .blocks => .never (.blocks s)
      | .done p =>
        let s := { s with output := p.kernel, out := s.out ++ p.out, pending := s.pending ++ w.arrives s.turns }
        if p.ret > 0 then checks verbose s
        else if p.ret = 0 then .stop 0 s
        else .stop 3 s
    else if g.ret = 0 then .stop 0 s
    else if w.interrupts s.turns ≠ [] then .again { s with pending := s.pending ++ w.interrupts s.turns }
    else .stop 3 s

/-- What follows the loop, `Diminuto/bin/meter.c:197-210`. -/
def finish (w : World) (status : Nat) (s : State) : Outcome :=
  let meter := (Meter.add w.rate s.meter (w.clock (s.turns + 1)) 0).1
  .exit status { s with meter := meter, reports := s.reports ++ [meter] }

/-- The loop, `Diminuto/bin/meter.c:142-195`, with what follows it. -/
def loop (w : World) (verbose : Bool) (block : BitVec 64) : Nat → State → Outcome
  | 0, s => .running s
  | turns + 1, s =>
    match turn w verbose block s with
    | .again s => loop w verbose block turns s
    | .stop status s => finish w status s
    | .never o => o

/-- The state at the beginning of the loop, `Diminuto/bin/meter.c:57-66`, `:133-134`. -/
def start (w : World) (memory : List Byte) (input : List Source) (output : List Sink) : State :=
  { input := input, output := output, buffer := memory, meter := Meter.reset (w.clock 0), turns := 0, pending := [], out := [], reports := [], history := [] }

/-- `main`, `Diminuto/bin/meter.c:55-211`, once the arguments have been converted, with the contents of the memory that `malloc(3)` returns, or nothing if it fails.  A block of no bytes is refused.  The handlers can be installed. -/
def main (w : World) (verbose : Bool) (block : BitVec 64) (memory : Option (List Byte)) (input : List Source) (output : List Sink) (turns : Nat) : Outcome :=
  if block = 0 then .exit 1 (start w [] input output)
  else
    match memory with
    | none => .exit 2 (start w [] input output)
    | some memory => loop w verbose block turns (start w memory input output)

end Diminuto.Metertool
