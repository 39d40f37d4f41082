import Verif.Address

/-!
# Specification: internet addresses
-/

namespace Diminuto.Address

/-- The number that so many bytes are in network byte order. -/
def number (b : Nat → Byte) : Nat → Nat
  | 0 => 0
  | n + 1 => number b n * 256 + (b n).toNat

/-- The words of the IPv6 address in which the IPv4 address of this number is embedded, RFC 4291, 2.5.5.2. -/
def mapped (n : Nat) (j : Nat) : Nat :=
  if j = 5 then 65535 else if j = 6 then n / 65536 else if j = 7 then n % 65536 else 0

/-- The first `n` of the 32 bits of an address are those of `p`. -/
def Prefix4 (a p n : Nat) : Prop := a / 2 ^ (32 - n) = p / 2 ^ (32 - n)

/-- The first `n` of the 16 bits of a word are those of `p`. -/
def Prefix16 (a p n : Nat) : Prop := a / 2 ^ (16 - n) = p / 2 ^ (16 - n)

/-- The address of an element, if it has one, as words. -/
def value : Option Sock → Option (Nat → Nat)
  | some (.in6 _ b) => some fun j => if j < 8 then number (fun i => b (2 * j + i)) 2 else 0
  | some (.in4 _ b) => some (mapped (number b 4))
  | _ => none

/-- The words of an address. -/
def words (a : V6) (j : Nat) : Nat := if h : j < 8 then (a ⟨j, h⟩).toNat else 0

/-- The array up to its end, as a caller reads it: `Diminuto/inc/com/diag/diminuto/diminuto_ipc6.h:259-279`. -/
def seen : List V6 → List V6
  | [] => []
  | a :: l => if ∀ j : Fin 8, a j = 0 then [] else a :: seen l

/-- No two in succession are the same. -/
def Apart : List (Nat → Nat) → Prop
  | [] => True
  | [_] => True
  | a :: b :: l => a ≠ b ∧ Apart (b :: l)

end Diminuto.Address
