import Verif.EndpointText
import Verif.EndpointSpec
import Verif.IpclSpec
import Verif.NumberSpec

/-!
# Specification: the conversion of endpoints to strings
-/

namespace Diminuto.EndpointText

open Endpoint (Result Kind)

/-- A decimal number without leading zeros. -/
def Decimal (s : List Byte) (n : Nat) : Prop := Number.Denotes 10 s n ∧ (n ≠ 0 → s.head? ≠ some 48#8) ∧ (n = 0 → s = [48#8])

/-- An IPv4 address in dot notation. -/
def Dotted (s : List Byte) (a : BitVec 32) : Prop :=
  ∃ x0 x1 x2 x3 s0 s1 s2 s3, a.toNat = ((x0 * 256 + x1) * 256 + x2) * 256 + x3 ∧ x1 < 256 ∧ x2 < 256 ∧ x3 < 256 ∧
    Decimal s0 x0 ∧ Decimal s1 x1 ∧ Decimal s2 x2 ∧ Decimal s3 x3 ∧ s = s0 ++ 46#8 :: s1 ++ 46#8 :: s2 ++ 46#8 :: s3

/-- The ports: nothing if there are none, one if they are the same, both otherwise, first that for TCP. -/
def Ports (s : List Byte) (tcp udp : BitVec 16) : Prop :=
  (tcp = 0 ∧ udp = 0 ∧ s = []) ∨
  (tcp ≠ 0 ∧ tcp = udp ∧ ∃ t, Decimal t tcp.toNat ∧ s = 58#8 :: t) ∨
  (tcp ≠ udp ∧ ∃ t u, Decimal t tcp.toNat ∧ Decimal u udp.toNat ∧ s = 58#8 :: t ++ 58#8 :: u)

/-- What is to be printed for an endpoint of an address family: the address of that family and the ports, and then, after a comma, the other address and the
ports. -/
def Shows (ntop : BitVec 128 → List Byte) (s : List Byte) (e : Result) : Prop :=
  ∃ p, Ports p e.tcp e.udp ∧ ∃ d, Dotted d e.ipv4 ∧
    ((e.type = .ipv4 ∧ s = (if e.ipv4 = 0 then [] else d) ++ p ++ (if e.ipv6 = 0 then [] else [44#8, 91#8] ++ ntop e.ipv6 ++ [93#8] ++ p)) ∨
     (e.type = .ipv6 ∧ s = (if e.ipv6 = 0 then [] else [91#8] ++ ntop e.ipv6 ++ [93#8]) ++ p ++ (if e.ipv4 = 0 then [] else [44#8] ++ d ++ p)))

/-- `inet_ntop(3)` for IPv6: the characters, the length, and that the addresses can be told apart. -/
structure Printer (ntop : BitVec 128 → List Byte) : Prop where
  chars : ∀ a, ∀ c ∈ ntop a, Endpoint.addressChar c = true
  length : ∀ a, (ntop a).length ≤ 39
  apart : ∀ a b, ntop a = ntop b → a = b

end Diminuto.EndpointText
