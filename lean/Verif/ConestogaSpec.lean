import Verif.Conestoga
import Verif.FramerProps

/-!
# Specification of the tool that passes datagrams over a serial line

The format of frames is that of `IsFrame`.  The rest is what an observer of the line and of the socket sees.
-/

namespace Diminuto.Conestoga

open Framer

/-- The octets that have arrived on the line. -/
def arrived : List Event → List Byte
  | [] => []
  | .arrive octets :: r => octets ++ arrived r
  | _ :: r => arrived r

/-- The datagrams that have come to the socket, with their senders. -/
def packets : List Event → List (Peer × List Byte)
  | [] => []
  | .packet p d :: r => (p, d) :: packets r
  | _ :: r => packets r

/-- The datagrams that have been received, with their senders. -/
def received (log : List Entry) : List (Peer × List Byte) :=
  log.filterMap fun e => match e with | .received p d => some (p, d) | _ => none

/-- What has been written to the line, by writes. -/
def written (log : List Entry) : List (List Byte) :=
  log.filterMap fun e => match e with | .wrote o => some o | _ => none

/-- The datagrams that have been sent, with their destinations. -/
def sent (log : List Entry) : List (Peer × List Byte) :=
  log.filterMap fun e => match e with | .sent p d => some (p, d) | _ => none

/-- The sender of the last datagram. -/
def last (log : List Entry) : Option Peer := (received log).getLast?.map (·.1)

/-- The datagrams that are sent because of one frame: a client sends it to the service, and then, which it should not, to where the server sends it. -/
def copies (c : Config) (x : Peer × List Byte) : List (Peer × List Byte) :=
  match c.role with
  | .client => [(c.service, x.2), x]
  | .server => [x]

/-- The service takes datagrams. -/
def Serves (w : World) (c : Config) : Prop := c.role = .client → c.service.port ≠ 0#16 ∧ ∀ log d, 0 < w.send log c.service d

/-- A line and a network that take everything. -/
def willing : World := ⟨fun _ _ => none, fun _ _ d => d.length⟩

/-- What an observer has seen of a run that goes on. -/
def seen : Run → Option (List Entry)
  | .running s => some s.log
  | _ => none

/-- What an observer has seen of a run that has stopped. -/
def seenStopped : Run → Option (List Entry)
  | .stopped s => some s.log
  | _ => none

/-- The behaviour is not defined. -/
def isUndefined : Run → Bool
  | .undefined => true
  | _ => false

/-- A valid frame that is not empty ends what has been taken from the line, and `rest` has not been taken. -/
def FrameEnds (past rest : List Byte) : Prop :=
  ∃ skipped wire payload seq, past = skipped ++ wire ++ rest ∧ IsFrame (wire.filter notFlow) payload seq ∧ payload ≠ []

/-- The reasons for which an event stops the tool: it is told to; a call fails; an empty datagram; the line fails, in which case a part of the frame may have been written; the line ends; a frame is complete, and there is
no sender of a datagram yet or it does not take the datagram. -/
def Reason (w : World) (c : Config) (past : List Byte) (s : State) (e : Event) (s' : State) : Prop :=
  match e with
  | .idle => False
  | .arrive _ => False
  | .terminate => s' = s
  | .lost => s' = s
  | .packet q d => (d.take c.size = [] ∧ s' = s) ∨ ∃ octets k, IsFrame octets (d.take c.size) (BitVec.ofNat 16 (written s.log).length) ∧ w.put (s.log ++ [.received q (d.take c.size)]) octets = some k ∧
      s'.log = s.log ++ [.received q (d.take c.size), .wrote (octets.take k)]
  | .serial n => (s.buffer = [] ∧ (s.line = [] ∨ n = 0) ∧ s'.log = s.log) ∨
      (FrameEnds past (s'.buffer ++ s'.line) ∧ (last s.log = none ∨ ∃ q, last s.log = some q ∧ (q.port = 0#16 ∨ ∃ d, w.send s'.log q d ≤ 0)) ∧
        (s'.log = s.log ∨ (c.role = .client ∧ ∃ d, s'.log = s.log ++ [.sent c.service d])))

end Diminuto.Conestoga
