import Verif.Datagram
import Verif.ScatterGather

/-!
# Model of records that are sent and received as datagrams

`Diminuto/src/diminuto_scattergather.c:267-385` and `Diminuto/src/diminuto_ipc.c:363-403`, with the records of `Verif/ScatterGather.lean` and the system calls of `Verif/Datagram.lean`: `sendmsg(2)` is `sendto` with what is in the vector, and `recvmsg(2)` is `recvfrom` with room for as much as
there is in the vector.
-/

namespace Diminuto.Gram

open ScatterGather (State enumerate vectorize gather scatter room MAXIMUM)
open Datagram (World Name Packet Errno name4 name6)
open Address (V4 V6 identify4 identify6)
open DList (Node)

variable {N : Nat} {σ : Type}

/-- The vector of a record, `Diminuto/src/diminuto_scattergather.c:275-283` and `:341-349`: nothing, if there are no segments or too many; the outer `none` is undefined behaviour.  `alloca(3)` does not return NULL. -/
def vector (s : State N) (rp : Node N) : Option (Option (List (Nat × BitVec 64))) :=
  (enumerate s rp).bind fun nn => if ¬ (0 < nn ∧ nn ≤ MAXIMUM) then some none else vectorize s rp nn

/-- `diminuto_scattergather_record_send_generic`, `Diminuto/src/diminuto_scattergather.c:267-291`: the result and whether there is a message. -/
def send (w : World σ) (fd : Int) (s : State N) (rp : Node N) (dest : Option Name) (t : σ) : Option ((Int × Bool) × σ) :=
  (vector s rp).bind fun va =>
  match va with
  | none => some ((0, true), t)
  | some va =>
    (gather s va).map fun d =>
    match w.sendto fd d 0 dest t with
    | (.ok n, t) => ((n, false), t)
    | (.error _, t) => ((-1, true), t)

/-- `diminuto_scattergather_record_ipc4_datagram_send`, `Diminuto/src/diminuto_scattergather.c:298-313`. -/
def send4 (w : World σ) (le : Bool) (fd : Int) (s : State N) (rp : Node N) (address : V4) (port : BitVec 16) (t : σ) : Option ((Int × Bool) × σ) :=
  send w fd s rp (if port.toNat > 0 then some (name4 le address port) else none) t

/-- `diminuto_scattergather_record_ipc6_datagram_send`, `Diminuto/src/diminuto_scattergather.c:315-331`. -/
def send6 (w : World σ) (le : Bool) (fd : Int) (s : State N) (rp : Node N) (address : V6) (port : BitVec 16) (t : σ) : Option ((Int × Bool) × σ) :=
  send w fd s rp (if port.toNat > 0 then some (name6 le address port) else none) t

/-- `diminuto_scattergather_record_receive_generic`, `Diminuto/src/diminuto_scattergather.c:333-357`: the records, the result, the socket address, which is all zeros, of no family, unless something has been received, and whether there is a message. -/
def receive (w : World σ) (fd : Int) (s : State N) (rp : Node N) (t : σ) : Option ((State N × Int × Name × Bool) × σ) :=
  (vector s rp).bind fun va =>
  match va with
  | none => some ((s, 0, .other, true), t)
  | some va =>
    match w.recvfrom fd (room va) 0 t with
    | (.ok k, t) => (scatter s va (k.data.take (room va))).map fun s => ((s, k.total, k.name, false), t)
    | (.error _, t) => some ((s, -1, .other, true), t)

/-- `diminuto_scattergather_record_ipc4_datagram_receive`, `Diminuto/src/diminuto_scattergather.c:364-374`.  A pointer that is not NULL is what it points to. -/
def receive4 (w : World σ) (le : Bool) (fd : Int) (s : State N) (rp : Node N) (addressp : Option V4) (portp : Option (BitVec 16)) (t : σ) :
    Option ((State N × Int × (Option V4 × Option (BitVec 16)) × Bool) × σ) :=
  (receive w fd s rp t).map fun r =>
    ((r.1.1, r.1.2.1, (addressp.map fun _ => (identify4 le r.1.2.2.1.sock).2.1, portp.map fun _ => (identify4 le r.1.2.2.1.sock).2.2), r.1.2.2.2), r.2)

/-- `diminuto_scattergather_record_ipc6_datagram_receive`, `Diminuto/src/diminuto_scattergather.c:376-386`. -/
def receive6 (w : World σ) (le : Bool) (fd : Int) (s : State N) (rp : Node N) (addressp : Option V6) (portp : Option (BitVec 16)) (t : σ) :
    Option ((State N × Int × (Option V6 × Option (BitVec 16)) × Bool) × σ) :=
  (receive w fd s rp t).map fun r =>
    ((r.1.1, r.1.2.1, (addressp.map fun old => (identify6 le old r.1.2.2.1.sock).2.1, portp.map fun _ => (identify6 le Address.UNSPECIFIED r.1.2.2.1.sock).2.2), r.1.2.2.2), r.2)

/-- `diminuto_ipc_message_receive_generic` and `diminuto_ipc_message_send_generic`, `Diminuto/src/diminuto_ipc.c:363-403`, with the result of `recvmsg(2)` or `sendmsg(2)`: the result and whether there is a message in the log. -/
def message (call : Except Errno Nat × σ) : (Int × Bool) × σ :=
  match call with
  | (.ok n, t) => if n > 0 then ((n, false), t) else ((0, false), t)
  | (.error .intr, t) => ((-1, false), t)
  | (.error .again, t) => ((-1, false), t)
  | (.error .other, t) => ((-1, true), t)

end Diminuto.Gram
