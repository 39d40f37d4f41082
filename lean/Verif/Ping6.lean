import Verif.Ping
import Verif.Address

/-!
# Model of the IPv6 ping

Models `Diminuto/src/diminuto_ping6.c:48-137`.  The byte order of the host is an argument.
-/

namespace Diminuto.Ping6
open Ping (store16 store64 load16 load64)
open Address (V6 Sock swap6 mem identify6)

/-- The socket address to which the request is sent, `Diminuto/src/diminuto_ping6.c:59-62`: the port is zero. -/
def destination (le : Bool) (address : V6) : Sock := .in6 (fun _ => 0) (fun i => mem le (swap6 le address) i)

/-- The datagram that is sent, `Diminuto/src/diminuto_ping6.c:51` and `:64-68`: the type 128, the code and the checksum, which are zero (the system computes the latter), the identifier and the sequence number in the byte
order of the host, the time, and zeros up to 64 bytes. -/
def request (le : Bool) (id seq : BitVec 16) (now : BitVec 64) : List Byte :=
  [128#8, 0#8] ++ [0#8, 0#8] ++ store16 le id ++ store16 le seq ++ store64 le now ++ List.replicate 48 0#8

/-- What `diminuto_ping6_datagram_receive` returns and stores through its pointers (`none`: not stored). -/
structure Result where
  total : Int
  address : Option V6 := none
  type : Option Byte := none
  code : Option Byte := none
  id : Option (BitVec 16) := none
  seq : Option (BitVec 16) := none
  elapsed : Option (BitVec 64) := none

/-- `diminuto_ping6_datagram_receive`, `Diminuto/src/diminuto_ping6.c:86-137`.  `arrival` is what `recvfrom(2)` gets, if it does not fail: the address of the sender and the datagram, of which at most 64 bytes are stored in the
buffer of zeros.  All pointers are given; `old` is what has been in the variable for the address.  The outer `none` is a read outside of the buffer. -/
def receive (le : Bool) (old : V6) (arrival : Option (Sock × List Byte)) (now : BitVec 64) : Option Result :=
  match arrival with
  | none => some { total := -1 }
  | some (sa, datagram) =>
    let total := min datagram.length 64
    let buffer := datagram.take 64 ++ List.replicate (64 - datagram.length) 0#8
    if total = 0 then some { total := 0 }
    else
      let address := some (identify6 le old sa).2.1
      if total < 8 then some { total := 0, address }
      else
        (buffer[0]?).bind fun type =>
        (buffer[1]?).bind fun code =>
        if type ≠ 129#8 then some { total := 0, address, type := some type, code := some code }
        else
          (load16 le (buffer.drop 4)).bind fun id =>
          (load16 le (buffer.drop 6)).bind fun seq =>
          (load64 le (buffer.drop 8)).map fun before =>
            { total := if total < 64 then 0 else total, address, type := some type, code := some code, id := some id, seq := some seq, elapsed := some (now - before) }

end Diminuto.Ping6
