import Verif.Driver
import Verif.SectionSpec

/-!
# What the memory mapped driver is meant to do
-/

namespace Diminuto.Driver

/-- The bytes of memory at an address are changed, each by a function of its number and its value, and no others. -/
def Changes (mem mem' : Nat → Byte) (address n : Nat) (f : Nat → Byte → Byte) : Prop := ∀ x, mem' x = if address ≤ x ∧ x < address + n then f (x - address) (mem x) else mem x

/-- A byte of a datum. -/
def byte (l : List Byte) (i : Nat) : Byte := (l[i]?).getD 0#8

/-- The argument is one that an application that uses the header passes: the data have eight bytes, and the structure can be read and written. -/
structure Proper (a : Arg) : Prop where
  datum : a.op.datum.length = 8
  mask : a.op.mask.length = 8
  readable : a.readable = true
  writable : a.writable = true

/-- The word: so many bytes, and the address is a multiple of that. -/
structure Fits (d : Dev) (a : Arg) (n : Nat) : Prop where
  width : a.op.width.toNat = n
  sizes : n = 1 ∨ n = 2 ∨ n = 4 ∨ n = 8
  aligned : n ∣ d.base + a.op.offset.toNat

/-- The bytes of an access are among those of the registers. -/
def Inside (d : Dev) (x : Access) : Prop := d.base ≤ x.address ∧ x.address + x.size ≤ d.base + d.length.toNat

end Diminuto.Driver
