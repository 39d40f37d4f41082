import Verif.Datagram
import Verif.Fd
import Verif.Mux

/-!
# Model of how the tool for the Internet provides and consumes

`Diminuto/bin/internettool.c`, the parts that provide and that consume: a provider returns to everybody what comes from it, and a consumer sends its standard input and writes what comes back to its standard output.  The functions that read and write are those of `Verif/Fd.lean`, those for
datagrams those of `Verif/Datagram.lean`.  What the multiplexer says to be ready is arbitrary; it says it of descriptors that are registered.  (The multiplexer has a model of its own, `Verif/Mux.lean`, that says so.)  A contract that is violated ends the program.  What is printed on the standard
error, and messages in the log, are left out.
-/

namespace Diminuto.Echo

open Diminuto.Fd (Source Sink)

/-- What a run comes to: it ends with a status of zero; it has not ended with what there has been to do; a contract is violated; it waits for ever in a function that reads or writes; or its behaviour is undefined. -/
inductive Outcome (α : Type) where
  | exits (a : α)
  | running (a : α)
  | panics
  | blocks
  | undefined
deriving DecidableEq

/-- One thing after the other, if the first one has not ended. -/
def Outcome.and {α : Type} (o : Outcome α) (f : α → Outcome α) : Outcome α :=
  match o with
  | .running a => f a
  | o => o

/-- Apply a function to the result, if there is one. -/
def Outcome.map {α β : Type} (f : α → β) : Outcome α → Outcome β
  | .exits a => .exits (f a)
  | .running a => .running (f a)
  | .panics => .panics
  | .blocks => .blocks
  | .undefined => .undefined

/-! ## Providing a stream -/

/-- A connection: its descriptor, what the kernel has on both sides, whether it can be closed, whether it is open, and what has been written. -/
structure Client where
  fd : Nat
  input : List Source
  output : List Sink
  closes : Bool
  opened : Bool
  said : List Byte
deriving DecidableEq

/-- What `accept(2)` does if the socket that listens is ready, `Diminuto/bin/internettool.c:820-832`: there is nothing after all; it fails; or there is a connection, with whether its far end has a name, which are the contracts at `:831-832`. -/
inductive Accept where
  | again
  | fails
  | client (c : Client) (named : Bool)
deriving DecidableEq

/-- What one wait of the multiplexer says: perhaps the socket that listens, and the descriptors that can be read in the order in which they are handed out. -/
structure Round where
  accept : Option Accept
  ready : List Nat
deriving DecidableEq

/-- The state: the buffer, and the connections in the order in which they were accepted. -/
structure State where
  buffer : List Byte
  clients : List Client
deriving DecidableEq

/-- Whether a descriptor is registered. -/
def registered (cs : List Client) (fd : Nat) : Bool := cs.any fun c => c.opened && c.fd == fd

/-- A connection is accepted and registered, `Diminuto/bin/internettool.c:819-836` and `:880-897`. -/
def accept (a : Option Accept) (s : State) : Outcome State :=
  match a with
  | none => .running s
  | some .again => .running s
  | some .fails => .panics
  | some (.client c named) =>
    if !named then .panics
    else if c.fd ≥ Mux.FD_SETSIZE then .panics
    else if registered s.clients c.fd then .panics
    else .running { s with clients := s.clients ++ [{ c with opened := true, said := [] }] }

/-- A connection that can be read, `Diminuto/bin/internettool.c:842-855` and `:903-916`, with the buffer. -/
def turn (block : BitVec 64) (buffer : List Byte) (c : Client) : Outcome (List Byte × Client) :=
  match Fd.read c.input buffer block with
  | .undefined => .undefined
  | .blocks => .blocks
  | .done g =>
    if g.ret < 0 then .panics
    else if g.ret = 0 then
      if c.closes then .running (g.mem, { c with input := g.kernel, opened := false }) else .panics
    else
      match Fd.write c.output g.mem (BitVec.ofInt 64 g.ret) with
      | .undefined => .undefined
      | .blocks => .blocks
      | .done p => if p.ret = g.ret then .running (g.mem, { c with input := g.kernel, output := p.kernel, said := c.said ++ p.out }) else .panics

/-- The connection with a descriptor that can be read. -/
def serve (block : BitVec 64) (fd : Nat) (buffer : List Byte) : List Client → Outcome (List Byte × List Client)
  | [] => .running (buffer, [])
  | c :: cs =>
    if c.opened && c.fd == fd then (turn block buffer c).map fun r => (r.1, r.2 :: cs)
    else (serve block fd buffer cs).map fun r => (r.1, c :: r.2)

/-- The connections that can be read, one after the other, `Diminuto/bin/internettool.c:837-856` and `:898-917`. -/
def serves (block : BitVec 64) : List Nat → State → Outcome State
  | [], s => .running s
  | fd :: fds, s => ((serve block fd s.buffer s.clients).map fun r => State.mk r.1 r.2).and (serves block fds)

/-- One wait and what follows, `Diminuto/bin/internettool.c:816-857` and `:877-918`.  A connection that has just been accepted is not ready before the next wait, `Diminuto/src/diminuto_mux.c:56-57`. -/
def round (block : BitVec 64) (r : Round) (s : State) : Outcome State :=
  (accept r.accept s).and fun t => serves block (r.ready.filter (registered s.clients)) t

/-- The loop, `Diminuto/bin/internettool.c:816-857` and `:877-918`. -/
def provide (block : BitVec 64) : List Round → State → Outcome State
  | [], s => .running s
  | r :: rs, s => (round block r s).and (provide block rs)

/-! ## Providing datagrams -/

section
variable {σ : Type} (w : Datagram.World σ) (le : Bool)

/-- One datagram of IPv4, `Diminuto/bin/internettool.c:936-943`. -/
def datagram4 (fd : Int) (block : Nat) (s : σ) : Outcome σ :=
  let r := Datagram.receive4 w le fd block 0 (some 0) (some 0) s
  if ¬ r.1.total > 0 then .panics
  else
    match r.1.sender with
    | (some address, some port) =>
      if address = 0 then .panics
      else if port = 0 then .panics
      else
        let q := Datagram.send4 w le fd (r.1.data.take r.1.total.toNat) address port 0 r.2
        if q.1.1 = r.1.total then .running q.2 else .panics
    | _ => .undefined

/-- One datagram of IPv6, `Diminuto/bin/internettool.c:960-967`. -/
def datagram6 (fd : Int) (block : Nat) (s : σ) : Outcome σ :=
  let r := Datagram.receive6 w le fd block 0 (some Address.UNSPECIFIED) (some 0) s
  if ¬ r.1.total > 0 then .panics
  else
    match r.1.sender with
    | (some address, some port) =>
      if ∀ j, address j = 0 then .panics
      else if port = 0 then .panics
      else
        let q := Datagram.send6 w le fd (r.1.data.take r.1.total.toNat) address port 0 r.2
        if q.1.1 = r.1.total then .running q.2 else .panics
    | _ => .undefined

/-- So many turns of the loop, `Diminuto/bin/internettool.c:935-946`, `:959-970`. -/
def repeated (f : σ → Outcome σ) : Nat → σ → Outcome σ
  | 0, s => .running s
  | n + 1, s => (f s).and (repeated f n)

end

/-! ## Consuming -/

/-- What the multiplexer says can be read: the socket or the standard input. -/
inductive Ready where
  | sock
  | source
deriving DecidableEq

/-- The state of a consumer, `Diminuto/bin/internettool.c:165-177`, with what the far end has for it and with what is done with what is sent to it, of some type, with what there is on the standard input and the standard output, and with what has been sent and written. -/
structure Consumer (σ : Type) where
  far : σ
  source : List Source
  sink : List Sink
  buffer : List Byte
  total : Int
  eof : Bool
  sent : List (List Byte)
  out : List Byte
deriving DecidableEq

/-- How the far end is read into the buffer: what is returned, and the buffer; and how bytes are sent to it. -/
structure Far (σ : Type) where
  receive : σ → List Byte → Fd.Outcome (Int × List Byte × Bool × σ)
  send : σ → List Byte → Fd.Outcome (Int × σ)

variable {σ : Type}

/-- Something can be read, `Diminuto/bin/internettool.c:996-1019`, `:1046-1075`, `:1105-1134`.  Once it has ended the standard input is not registered.  Of what has been received the flag says whether it is from the right port, `:1054` and `:1113`.  The total is a number of 64 bits; that
it does not overflow is assumed. -/
def event (f : Far σ) (block : BitVec 64) (e : Ready) (s : Consumer σ) : Outcome (Consumer σ) :=
  match e with
  | .sock =>
    match f.receive s.far s.buffer with
    | .undefined => .undefined
    | .blocks => .blocks
    | .done (input, mem, right, far) =>
      if ¬ input > 0 then .panics
      else if !right then .panics
      else
        match Fd.write s.sink mem (BitVec.ofInt 64 input) with
        | .undefined => .undefined
        | .blocks => .blocks
        | .done p => if p.ret = input then .running { s with far := far, buffer := mem, sink := p.kernel, out := s.out ++ p.out, total := s.total - p.ret } else .panics
  | .source =>
    if s.eof then .running s
    else
      match Fd.read s.source s.buffer block with
      | .undefined => .undefined
      | .blocks => .blocks
      | .done g =>
        if g.ret < 0 then .panics
        else if g.ret = 0 then .running { s with source := g.kernel, buffer := g.mem, eof := true }
        else
          match f.send s.far (g.mem.take g.ret.toNat) with
          | .undefined => .undefined
          | .blocks => .blocks
          | .done (output, far) =>
            if output = g.ret then .running { s with far := far, source := g.kernel, buffer := g.mem, sent := s.sent ++ [g.mem.take g.ret.toNat], total := s.total + output } else .panics

/-- What can be read after a wait, one after the other, `Diminuto/bin/internettool.c:991-1020`, `:1041-1076`, `:1100-1135`. -/
def events (f : Far σ) (block : BitVec 64) : List Ready → Consumer σ → Outcome (Consumer σ)
  | [], s => .running s
  | e :: es, s => (event f block e s).and (events f block es)

/-- The loop, `Diminuto/bin/internettool.c:988-1021`, `:1038-1077`, `:1097-1136`, and the end, `:1215`; unregistering and closing the socket succeed. -/
def consume (f : Far σ) (block : BitVec 64) : List (List Ready) → Consumer σ → Outcome (Consumer σ)
  | [], s => if ¬ s.eof ∨ s.total > 0 then .running s else .exits s
  | r :: rs, s => if ¬ s.eof ∨ s.total > 0 then (events f block r s).and (consume f block rs) else .exits s

/-- The beginning, `Diminuto/bin/internettool.c:165-177`. -/
def Consumer.start (far : σ) (source : List Source) (sink : List Sink) (buffer : List Byte) : Consumer σ := ⟨far, source, sink, buffer, 0, false, [], []⟩

/-- A stream, `Diminuto/bin/internettool.c:997` and `:1013`: what the kernel has on both sides, and what it has taken.  That what is sent comes from the buffer is in `event`. -/
def stream (block : BitVec 64) : Far (List Source × List Sink × List Byte) where
  receive := fun k mem => (Fd.read k.1 mem block).map fun g => (g.ret, g.mem, true, (g.kernel, k.2.1, k.2.2))
  send := fun k bs => (Fd.write k.2.1 bs (BitVec.ofNat 64 bs.length)).map fun p => (p.ret, (k.1, p.kernel, k.2.2 ++ p.out))

/-- Datagrams of IPv4, `Diminuto/bin/internettool.c:1047-1054` and `:1069`; what is received is stored in the buffer. -/
def datagrams4 (w : Datagram.World σ) (le : Bool) (fd : Int) (block : Nat) (server : BitVec 32) (rendezvous : BitVec 16) : Far σ where
  receive := fun s mem =>
    let r := Datagram.receive4 w le fd block 0 (some 0) (some 0) s
    match Fd.store mem 0 r.1.data with
    | none => .undefined
    | some mem => .done (r.1.total, mem, decide (r.1.sender.2 = some rendezvous), r.2)
  send := fun s bs =>
    let q := Datagram.send4 w le fd bs server rendezvous 0 s
    .done (q.1.1, q.2)

/-- Datagrams of IPv6, `Diminuto/bin/internettool.c:1106-1113` and `:1128`. -/
def datagrams6 (w : Datagram.World σ) (le : Bool) (fd : Int) (block : Nat) (server : Address.V6) (rendezvous : BitVec 16) : Far σ where
  receive := fun s mem =>
    let r := Datagram.receive6 w le fd block 0 (some Address.UNSPECIFIED) (some 0) s
    match Fd.store mem 0 r.1.data with
    | none => .undefined
    | some mem => .done (r.1.total, mem, decide (r.1.sender.2 = some rendezvous), r.2)
  send := fun s bs =>
    let q := Datagram.send6 w le fd bs server rendezvous 0 s
    .done (q.1.1, q.2)

end Diminuto.Echo
