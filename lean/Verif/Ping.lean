import Verif.Fletcher

/-!
# Model of the internet checksum and the IPv4 ping

Models `Diminuto/src/diminuto_ping4.c:34-195`.

Memory is a list of bytes.  The byte order of the host is a parameter (`le`), because the code stores and loads `uint16_t` and
`diminuto_ticks_t` objects in the byte order of the host.  Reading outside of the datagram buffer is undefined behaviour: `none`.
-/

namespace Diminuto.Ping

/-- Reading `datum.word` after storing two bytes in the union, `Diminuto/src/diminuto_ping4.c:34-37`; `le` is true for a little-endian
host. -/
def word (le : Bool) (b0 b1 : Byte) : BitVec 16 := if le then b1 ++ b0 else b0 ++ b1

/-- The bytes in memory of an `uint16_t`. -/
def store16 (le : Bool) (w : BitVec 16) : List Byte :=
  let high : Byte := w.extractLsb' 8 8
  let low : Byte := w.extractLsb' 0 8
  if le then [low, high] else [high, low]

/-- The summing loop and the odd byte, `Diminuto/src/diminuto_ping4.c:47-58`; the accumulator is an `uint32_t`. -/
def sum (le : Bool) : List Byte → BitVec 32 → BitVec 32
  | b0 :: b1 :: rest, acc => sum le rest (acc + (word le b0 b1).setWidth 32)
  | [b0], acc => acc + (word le b0 0#8).setWidth 32
  | [], acc => acc

/-- The folding loop, `Diminuto/src/diminuto_ping4.c:60-62`; `none` if it is not finished after that many iterations. -/
def fold : Nat → BitVec 32 → Option (BitVec 32)
  | 0, _ => none
  | n + 1, acc =>
    let datum : BitVec 16 := (acc >>> 16).setWidth 16
    if datum ≠ 0#16 then fold n ((acc &&& 0xFFFF#32) + datum.setWidth 32) else some acc

/-- `diminuto_inet_checksum`, `Diminuto/src/diminuto_ping4.c:39-65`.  (Three evaluations of the condition of the loop are enough, as is
proved.) -/
def checksum (le : Bool) (bs : List Byte) : Option (BitVec 16) :=
  (fold 3 (sum le bs 0#32)).map fun acc => (~~~ acc).setWidth 16

/-- The bytes in memory of a `diminuto_ticks_t`, `memcpy` of `Diminuto/src/diminuto_ping4.c:106`. -/
def store64 (le : Bool) (t : BitVec 64) : List Byte :=
  let bytes : List Byte := [t.extractLsb' 0 8, t.extractLsb' 8 8, t.extractLsb' 16 8, t.extractLsb' 24 8,
    t.extractLsb' 32 8, t.extractLsb' 40 8, t.extractLsb' 48 8, t.extractLsb' 56 8]
  if le then bytes else bytes.reverse

/-- `memcpy` into a `diminuto_ticks_t`, `Diminuto/src/diminuto_ping4.c:178`, from the start of a list; `none` if there are not that many
bytes. -/
def load64 (le : Bool) (bs : List Byte) : Option (BitVec 64) :=
  match bs with
  | b0 :: b1 :: b2 :: b3 :: b4 :: b5 :: b6 :: b7 :: _ =>
    if le then some (b7 ++ b6 ++ b5 ++ b4 ++ b3 ++ b2 ++ b1 ++ b0) else some (b0 ++ b1 ++ b2 ++ b3 ++ b4 ++ b5 ++ b6 ++ b7)
  | _ => none

/-- An `uint16_t` in memory at the start of a list. -/
def load16 (le : Bool) (bs : List Byte) : Option (BitVec 16) :=
  match bs with
  | b0 :: b1 :: _ => some (word le b0 b1)
  | _ => none

/-- The ICMP echo request built by `diminuto_ping4_datagram_send`, `Diminuto/src/diminuto_ping4.c:92-107`: type 8, code 0, checksum,
identifier and sequence in the byte order of the host, the time, and zeros up to 64 bytes.  The checksum is computed while its field is
zero. -/
def request (le : Bool) (id seq : BitVec 16) (now : BitVec 64) : Option (List Byte) :=
  let rest := store16 le id ++ store16 le seq ++ store64 le now ++ List.replicate 48 0#8
  (checksum le ([8#8, 0#8] ++ [0#8, 0#8] ++ rest)).map fun c => [8#8, 0#8] ++ store16 le c ++ rest

/-- `sizeof(icmp_echo_reply_datagram_t)`, `Diminuto/src/diminuto_ping4.c:125-131`: the greater of 20+28 and 20+8+56. -/
def SIZE : Nat := 84

/-- What `diminuto_ping4_datagram_receive` returns and stores through its pointers (`none`: not stored);
`Diminuto/src/diminuto_ping4.c:133`. -/
structure Result where
  total : Nat
  type : Option Byte := none
  code : Option Byte := none
  id : Option (BitVec 16) := none
  seq : Option (BitVec 16) := none
  ttl : Option Byte := none
  elapsed : Option (BitVec 64) := none
  deriving DecidableEq

/-- `diminuto_ping4_datagram_receive` when `recvfrom` has a datagram that is not empty, `Diminuto/src/diminuto_ping4.c:133-195`.
`recvfrom` stores at most 84 bytes of it in the buffer of zeros and returns their number.  All pointers are passed; the sender's address
is left out.  `ipp->ihl` is the low nibble of the first byte, whatever the byte order.  If the header length exceeds the number of bytes
received then the size passed to the checksum (line 152) is a negative number converted to `size_t`, and the checksum reads outside of the
buffer. -/
def receive (le : Bool) (datagram : List Byte) (now : BitVec 64) : Option Result :=
  let total := min datagram.length SIZE
  let buffer := datagram.take SIZE ++ List.replicate (SIZE - datagram.length) 0#8
  if total < 20 + 8 then some { total := 0 }
  else
    (buffer[0]?).bind fun version =>
    let offset := (version &&& 0x0F#8).toNat <<< 2
    if offset > total then none
    else
      (checksum le ((buffer.drop offset).take (total - offset))).bind fun c =>
      if c ≠ 0#16 then some { total := 0 }
      else
        (buffer[offset]?).bind fun type =>
        (buffer[offset + 1]?).bind fun code =>
        if type ≠ 0#8 then some { total := 0, type := some type, code := some code }
        else
          (load16 le (buffer.drop (offset + 4))).bind fun id =>
          (load16 le (buffer.drop (offset + 6))).bind fun seq =>
          (buffer[8]?).bind fun ttl =>
          if total < SIZE then
            some { total := 0, type := some type, code := some code, id := some id, seq := some seq, ttl := some ttl }
          else
            (load64 le (buffer.drop (offset + 8))).bind fun before =>
            some { total := total - 20, type := some type, code := some code, id := some id, seq := some seq, ttl := some ttl,
                   elapsed := some (now - before) }

end Diminuto.Ping
