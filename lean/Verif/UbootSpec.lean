import Verif.Uboot

/-!
# Specification: the environment of U-Boot
-/

namespace Diminuto.Uboot

/-- The bits of bytes in the order in which a CRC of this kind takes them, the least significant bit of each byte first. -/
def bits : List Byte → List Bool
  | [] => []
  | b :: r => [b.getLsbD 0, b.getLsbD 1, b.getLsbD 2, b.getLsbD 3, b.getLsbD 4, b.getLsbD 5, b.getLsbD 6, b.getLsbD 7] ++ bits r

/-- A step of the shift register of CRC-32 of IEEE 802.3: the register shifts to the right, and where the bit that falls out differs from the bit that comes in, the polynomial
`0xedb88320`, whose bits are in reverse order, is subtracted. -/
def register (s : BitVec 32) (b : Bool) : BitVec 32 := if s.getLsbD 0 ≠ b then (s >>> 1) ^^^ 0xedb88320#32 else s >>> 1

/-- CRC-32 of IEEE 802.3, one bit after the other: the register begins with ones, and is inverted at the end. -/
def checksum (data : List Byte) : BitVec 32 := ~~~((bits data).foldl register (BitVec.allOnes 32))

/-- An entry of an environment: a name without `=` and NUL, and a value without NUL. -/
def Entry (e : List Byte × List Byte) : Prop := (∀ b ∈ e.1, b ≠ 61#8 ∧ b ≠ 0#8) ∧ ∀ b ∈ e.2, b ≠ 0#8

/-- An entry as text. -/
def text (e : List Byte × List Byte) : List Byte := e.1 ++ 61#8 :: e.2

/-- The layout of an environment: the entries each with a NUL behind it, and another NUL. -/
def layout (env : List (List Byte × List Byte)) : List Byte := (env.flatMap fun e => text e ++ [0#8]) ++ [0#8]

/-- The four bytes that a host loads as a number. -/
def Stored (little : Bool) (c : List Byte) (v : BitVec 32) : Prop :=
  ∃ f : Fin 4 → Byte, c = List.ofFn f ∧ ∀ i : Fin 4, (f i).toNat = v.toNat / 256 ^ (if little then i.val else 3 - i.val) % 256

/-- Memory with a valid environment, with anything behind it. -/
def Valid (little : Bool) (env : List (List Byte × List Byte)) (memory : List Byte) : Prop :=
  ∃ c pad, memory = c ++ (layout env ++ pad) ∧ memory.length = 8192 ∧ Stored little c (checksum (layout env ++ pad)) ∧ ∀ e ∈ env, Entry e

end Diminuto.Uboot
