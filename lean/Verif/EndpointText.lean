import Verif.Endpoint
import Verif.Ipcl

/-!
# Model of the conversion of endpoints to strings

`diminuto_ipc_endpoint2string`, `Diminuto/src/diminuto_ipc_endpoint.c:600-672`, and the conversion of addresses, `Diminuto/src/diminuto_ipc4.c:147-167` and
`Diminuto/src/diminuto_ipc6.c:266-284`.  A buffer is the list of the bytes that may be written.  `inet_ntop(3)` for IPv6 is a parameter; it gets the address as a
number, so that byte orders do not matter (that the conversion between them is right is in `Verif/AddressProps.lean`).
-/

namespace Diminuto.EndpointText

open Endpoint (Result Kind)
open Number (decimal text port2string)

/-- `inet_ntoa(3)`, `Diminuto/src/diminuto_ipc4.c:160`. -/
def dotted (a : BitVec 32) : List Byte :=
  decimal (a.toNat / 2 ^ 24) ++ 46#8 :: (decimal (a.toNat / 2 ^ 16 % 256) ++ 46#8 :: (decimal (a.toNat / 2 ^ 8 % 256) ++ 46#8 :: decimal (a.toNat % 256)))

/-- `diminuto_ipc4_dotnotation`, `Diminuto/src/diminuto_ipc4.c:147-167`. -/
def dotnotation (a : BitVec 32) (buffer : List Byte) : List Byte :=
  if buffer.length > 0 then Ipcl.strncpyz buffer.length (dotted a) else buffer

/-- `diminuto_ipc6_colonnotation`, `Diminuto/src/diminuto_ipc6.c:266-284`. -/
def colonnotation (ntop : BitVec 128 → List Byte) (a : BitVec 128) (buffer : List Byte) : List Byte :=
  if buffer.length > 0 then Ipcl.strncpyz buffer.length (ntop a) else buffer

/-- `ipv4buffer`, `ipv6buffer`, `tcpbuffer` and `udpbuffer`, `Diminuto/src/diminuto_ipc_endpoint.c:603-606`; the sizes are those of
`Diminuto/inc/com/diag/diminuto/diminuto_types.h:101-107`. -/
def zeros (n : Nat) : List Byte := List.replicate n 0#8

/-- `snprintf(3)` of strings that have been concatenated; the bytes after the terminator are not written. -/
def snprintf (buffer : List Byte) (s : List Byte) : List Byte :=
  let t := s.take (buffer.length - 1)
  t ++ 0#8 :: buffer.drop (t.length + 1)

/-- `diminuto_ipc_endpoint2string`, `Diminuto/src/diminuto_ipc_endpoint.c:600-672`: the buffer afterwards; `none` is undefined behaviour. -/
def endpoint2string (realpath : List Byte → Option (List Byte)) (ntop : BitVec 128 → List Byte) (e : Result) (buffer : List Byte) : Option (List Byte) :=
  if buffer.length > 0 then
    let tcp := decide (e.tcp ≠ 0) || decide (e.udp ≠ 0)
    let udp := (decide (e.tcp ≠ 0) || decide (e.udp ≠ 0)) && decide (e.tcp ≠ e.udp)
    let ipv4 := !decide (e.ipv4 = 0)
    let ipv6 := !decide (e.ipv6 = 0)
    let ipv4tcp := ipv4 && tcp
    let ipv4udp := ipv4 && udp
    let ipv6tcp := ipv6 && tcp
    let ipv6udp := ipv6 && udp
    let buffer := buffer.set 0 0#8
    (match (motive := Kind → Option (List Byte)) e.type with
      | .locale => Ipcl.path2string realpath (some e.locale) buffer
      | .ipv6 =>
        some (snprintf buffer (
          (if ipv6 then [91#8] else []) ++
          (if ipv6 then text (colonnotation ntop e.ipv6 (zeros 40)) else []) ++
          (if ipv6 then [93#8] else []) ++
          (if tcp then [58#8] else []) ++
          (if tcp then text (port2string e.tcp (zeros 6)) else []) ++
          (if udp then [58#8] else []) ++
          (if udp then text (port2string e.udp (zeros 6)) else []) ++
          (if ipv4 then [44#8] else []) ++
          (if ipv4 then text (dotnotation e.ipv4 (zeros 16)) else []) ++
          (if ipv4tcp then [58#8] else []) ++
          (if ipv4tcp then text (port2string e.tcp (zeros 6)) else []) ++
          (if ipv4udp then [58#8] else []) ++
          (if ipv4udp then text (port2string e.udp (zeros 6)) else [])))
      | .ipv4 =>
        some (snprintf buffer (
          (if ipv4 then text (dotnotation e.ipv4 (zeros 16)) else []) ++
          (if tcp then [58#8] else []) ++
          (if tcp then text (port2string e.tcp (zeros 6)) else []) ++
          (if udp then [58#8] else []) ++
          (if udp then text (port2string e.udp (zeros 6)) else []) ++
          (if ipv6 then [44#8] else []) ++
          (if ipv6 then [91#8] else []) ++
          (if ipv6 then text (colonnotation ntop e.ipv6 (zeros 40)) else []) ++
          (if ipv6 then [93#8] else []) ++
          (if ipv6tcp then [58#8] else []) ++
          (if ipv6tcp then text (port2string e.tcp (zeros 6)) else []) ++
          (if ipv6udp then [58#8] else []) ++
          (if ipv6udp then text (port2string e.udp (zeros 6)) else [])))
      | .unspecified => some buffer).map fun (b : List Byte) => b.set (buffer.length - 1) 0#8
  else some buffer

end Diminuto.EndpointText
