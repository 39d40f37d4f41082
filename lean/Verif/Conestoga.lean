import Verif.FramerStream

/-!
# Model of the tool that passes datagrams over a serial line

Models the work loop of `Diminuto/bin/conestoga.c`, `:438-564`.  The options, and the opening of the line and of the socket are not modelled: the loop begins with both, and with memory for the buffers.  The addresses of both families are numbers.
The multiplexer reports a descriptor that is ready, which is an event (`Diminuto/bin/conestoga.c:456-472`); in between octets arrive on the line.  Logging and the mask of the log are left out.
-/

namespace Diminuto.Conestoga

open Framer

/-- `role_t`, `Diminuto/bin/conestoga.c:48-51`. -/
inductive Role where
  | client | server
deriving DecidableEq

/-- An address and a port, `service4`, `service6` and `serviceport` or `sender4`, `sender6` and `senderport`, `Diminuto/bin/conestoga.c:82-87`. -/
structure Peer where
  address : BitVec 128
  port : BitVec 16
deriving DecidableEq

/-- What is given by the options: the role, the endpoint of the service, `bufsize`, and whether the line is one stream for both directions (`-D`) or two (`stdin` and `stdout`), `Diminuto/bin/conestoga.c:310-323`. -/
structure Config where
  role : Role
  service : Peer
  size : Nat
  shared : Bool

/-- What is seen from outside: a datagram is received, octets are written to the line, a datagram is sent. -/
inductive Entry where
  | received (sender : Peer) (data : List Byte)
  | wrote (octets : List Byte)
  | sent (peer : Peer) (data : List Byte)
deriving DecidableEq

/-- The line and the network.  `put` is nothing if all octets are written and flushed, and otherwise how many of them were; `send` is the result of `sendto(2)`. -/
structure World where
  put : List Entry → List Byte → Option Nat
  send : List Entry → Peer → List Byte → Int

/-- What happens: nothing (a time out, or an interrupted call), the signal to terminate, a datagram, an error of `recvfrom(2)`, octets that arrive on the line, and the line is ready and `read(2)`, if it is called, returns a number of octets. -/
inductive Event where
  | idle
  | terminate
  | packet (sender : Peer) (data : List Byte)
  | lost
  | arrive (octets : List Byte)
  | serial (n : Nat)

/-- The variables of `main`, `Diminuto/bin/conestoga.c:55-99`: the framer, the sender of the last datagram, the buffer of the input stream, whether the last operation on it was input; and what has arrived on the line, and what has been seen. -/
structure State where
  framer : Framer
  sender : Peer
  buffer : List Byte
  input : Bool
  line : List Byte
  log : List Entry

/-- How it goes on. -/
inductive Run where
  | running (s : State)
  | stopped (s : State)
  | undefined

/-- `diminuto_ipc4_datagram_send` and `diminuto_ipc6_datagram_send`, `Diminuto/src/diminuto_ipc4.c:431-461`: without a port there is no address, which is an error for a socket that is not connected. -/
def datagramSend (w : World) (peer : Peer) (data : List Byte) (log : List Entry) : Int × List Entry :=
  if peer.port = 0#16 then (-1, log)
  else
    let r := w.send log peer data
    (r, if r > 0 then log ++ [.sent peer data] else log)

/-- The frame that has been received is sent, `Diminuto/bin/conestoga.c:522-554`: `received`, which is what `diminuto_framer_reader` returned, are sent from the buffer.  There is no `break` after the case of the client. -/
def forward (w : World) (c : Config) (s : State) : Run :=
  if s.framer.total > s.framer.buffer.length then .undefined
  else
    let data := s.framer.buffer.take s.framer.total
    let log :=
      match c.role with
      | .client => (datagramSend w c.service data s.log).2
      | .server => s.log
    let r := datagramSend w s.sender data log
    let s := { s with framer := reset s.framer, log := r.2 }
    if r.1 ≤ 0 then .stopped s else .running s

/-- A turn of the loop for a descriptor that is ready, `Diminuto/bin/conestoga.c:438-562`.  Output that follows input on the same stream without a call in between that positions it is not defined by the standard of the language. -/
def step (w : World) (c : Config) (s : State) (e : Event) : Run :=
  match e with
  | .idle => .running s
  | .terminate => .stopped s
  | .lost => .stopped s
  | .arrive octets => .running { s with line := s.line ++ octets }
  | .packet sender data =>
    let data := data.take c.size
    if data = [] then .stopped s
    else
      let s := { s with sender := sender, log := s.log ++ [.received sender data] }
      if c.shared ∧ s.input then .undefined
      else
        match writer s.framer data with
        | none => .stopped s
        | some (octets, f) =>
          match w.put s.log octets with
          | some n => .stopped { s with framer := f, log := s.log ++ [.wrote (octets.take n)] }
          | none => .running { s with framer := f, log := s.log ++ [.wrote octets] }
  | .serial n =>
    match reader s.framer s.buffer s.line n with
    | .undefined => .undefined
    | .ended => .stopped { s with framer := { s.framer with state := .final } }
    | .taken f complete buffer line =>
      let s := { s with framer := f, buffer := buffer, line := line, input := c.shared }
      if complete then forward w c s else .running s

/-- The loop, `Diminuto/bin/conestoga.c:438-564`. -/
def run (w : World) (c : Config) : State → List Event → Run
  | s, [] => .running s
  | s, e :: r =>
    match step w c s e with
    | .running s => run w c s r
    | other => other

/-- The variables when the loop begins; what the memory of the buffer has is not known. -/
def start (c : Config) (memory : List Byte) : State :=
  { framer := init memory c.size, sender := ⟨0, 0⟩, buffer := [], input := false, line := [], log := [] }

end Diminuto.Conestoga
