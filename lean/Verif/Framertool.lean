import Verif.FramerStream

/-!
# Model of the tool that passes lines of text over a serial line

Models the work loop of `Diminuto/bin/framertool.c`, `:351-490`.  The options, and the opening of the device and of the multiplexer are not modelled: the loop begins with them, and with memory for the buffers.  Logging and dumps are left out.
Octets arrive on the device, and are typed on the standard input, in between the turns of the loop, each of which deals with the descriptors that the multiplexer reports as ready.
-/

namespace Diminuto.Framertool

open Framer

/-- `bufsize`, `Diminuto/bin/framertool.c:155-162`, and whether output that follows input on the stream of the device is undefined, as in the standard of the language, or the two directions of it do not disturb each other. -/
structure Config where
  size : Nat
  strict : Bool

/-- What is seen from outside: octets are written to the device, octets are written to the standard output. -/
inductive Entry where
  | wrote (octets : List Byte)
  | printed (octets : List Byte)
deriving DecidableEq

/-- The device and the standard output: nothing if all octets are written and flushed, and otherwise how many of them were.  (What a stream may keep after a failure, and write later, is left out.) -/
structure World where
  put : List Entry → List Byte → Option Nat
  out : List Entry → List Byte → Option Nat

/-- What happens: octets arrive on the device, or are typed on the standard input; and how a turn of the loop goes: nothing (a time out, or an interrupted call), the signal to terminate or an error of `select(2)`, or descriptors are
ready, with the numbers of octets that `read(2)`, if it is called, returns for each, and which of the two is the first. -/
inductive Event where
  | arrive (octets : List Byte)
  | type (octets : List Byte)
  | idle
  | terminate
  | ready (input device : Option Nat) (inputFirst : Bool)

/-- The variables of `main`, `Diminuto/bin/framertool.c:76-117`: the framer; the part of a line in `line`, up to `here`; the buffer of the stream of the device, and whether the last operation on it was input; the buffer of the
standard input; `deveof`, `inpeof` and `outeof`; whether the loop was left by a `break`; and what has arrived on the device and has been typed and not been read, and what has been seen. -/
structure State where
  framer : Framer
  text : List Byte
  buffer : List Byte
  reading : Bool
  held : List Byte
  deveof : Bool
  inpeof : Bool
  outeof : Bool
  broken : Bool
  line : List Byte
  keys : List Byte
  log : List Entry

/-- The loop has ended, `Diminuto/bin/framertool.c:353-356`, `:370-372`, `:490`. -/
def over (s : State) : Bool := s.broken || s.deveof || (s.inpeof && s.outeof)

/-- The octets of the standard input that are in the buffer of its stream, `Diminuto/bin/framertool.c:381-412`; nothing if the behaviour is not defined. -/
def take (w : World) (c : Config) : List Byte → State → Option State
  | [], s => some { s with held := [] }
  | token :: rest, s =>
    if token = 0x0a#8 then
      if c.size < s.text.length + 1 then none
      else if c.strict ∧ s.reading then none
      else
        let data := s.text ++ [0x0a#8]
        match writer s.framer data with
        | none => some { s with text := data, held := rest, deveof := true }
        | some (octets, f) =>
          match w.put s.log octets with
          | some n => some { s with text := data, held := rest, framer := f, deveof := true, log := s.log ++ [.wrote (octets.take n)] }
          | none => take w c rest { s with framer := f, text := [], log := s.log ++ [.wrote octets] }
    else if s.text.length < c.size - 1 then take w c rest { s with text := s.text ++ [token] }
    else take w c rest s

/-- The standard input is ready, `Diminuto/bin/framertool.c:379-412`; nothing if the behaviour is not defined. -/
def input (w : World) (c : Config) (n : Nat) (s : State) : Option State :=
  if s.inpeof then some s
  else if s.keys.take n = [] then some { s with inpeof := true }
  else take w c (s.keys.take n) { s with keys := s.keys.drop n }

/-- The device is ready, `Diminuto/bin/framertool.c:414-480`: the state, and whether the loop over the descriptors is left; nothing if the behaviour is not defined. -/
def device (w : World) (n : Nat) (s : State) : Option (State × Bool) :=
  if s.deveof then some (s, false)
  else
    match reader s.framer s.buffer s.line n with
    | .undefined => none
    | .ended => some ({ s with framer := { s.framer with state := .final }, deveof := true }, true)
    | .taken f complete buffer line =>
      let s := { s with framer := f, buffer := buffer, line := line, reading := true }
      if complete then
        if s.framer.length > s.framer.buffer.length then none
        else
          let data := s.framer.buffer.take s.framer.length
          match w.out s.log data with
          | some k => some ({ s with outeof := true, log := s.log ++ [.printed (data.take k)] }, true)
          | none => some ({ s with framer := reset s.framer, log := s.log ++ [.printed data] }, false)
      else some (s, false)

/-- What is done for the standard input in a turn of the loop. -/
def inputOf (w : World) (c : Config) (i : Option Nat) (s : State) : Option State :=
  match i with
  | none => some s
  | some n => input w c n s

/-- What is done for the device in a turn of the loop. -/
def deviceOf (w : World) (d : Option Nat) (s : State) : Option (State × Bool) :=
  match d with
  | none => some (s, false)
  | some n => device w n s

/-- A turn of the loop, `Diminuto/bin/framertool.c:351-490`.  What is not read while the loop goes on stays where it is. -/
def step (w : World) (c : Config) (s : State) (e : Event) : Option State :=
  match e with
  | .arrive octets => some { s with line := s.line ++ octets }
  | .type octets => some { s with keys := s.keys ++ octets }
  | .idle => some s
  | .terminate => some (if over s then s else { s with broken := true })
  | .ready i d inputFirst =>
    if over s then some s
    else if inputFirst then
      (inputOf w c i s).bind fun s => (deviceOf w d s).map fun r => r.1
    else
      (deviceOf w d s).bind fun r => if r.2 then some r.1 else inputOf w c i r.1

/-- The loop. -/
def run (w : World) (c : Config) : State → List Event → Option State
  | s, [] => some s
  | s, e :: r => (step w c s e).bind fun s => run w c s r

/-- The variables when the loop begins; what the memory of the buffer has is not known. -/
def start (c : Config) (memory : List Byte) : State :=
  { framer := init memory c.size, text := [], buffer := [], reading := false, held := [], deveof := false, inpeof := false, outeof := false, broken := false, line := [], keys := [], log := [] }

end Diminuto.Framertool
