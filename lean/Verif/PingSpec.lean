import Verif.Ping

/-!
# Specification: the internet checksum and ping
-/

namespace Diminuto.Ping

/-- The sixteen-bit words of a message in network byte order, an odd last byte being padded with zero (RFC 1071). -/
def words : List Byte → List Nat
  | b0 :: b1 :: rest => (256 * b0.toNat + b1.toNat) :: words rest
  | [b0] => [256 * b0.toNat]
  | [] => []

/-- Addition in sixteen-bit ones' complement: the carry is added to the sum. -/
def onesAdd (a b : Nat) : Nat := if a + b ≥ 65536 then a + b - 65535 else a + b

/-- The checksum of RFC 1071: the ones' complement of the ones' complement sum of the words. -/
def rfc1071 (bs : List Byte) : Nat := 65535 - (words bs).foldl onesAdd 0

/-- The number that two bytes are in network byte order. -/
def network : List Byte → Nat
  | [b0, b1] => 256 * b0.toNat + b1.toNat
  | _ => 0

/-- Internet header length, in bytes, of a datagram. -/
def headerLength (datagram : List Byte) : Nat := 4 * ((datagram.headD 0#8).toNat % 16)

end Diminuto.Ping
