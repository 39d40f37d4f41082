import Verif.FdMap

/-!
# Specification: tables of descriptors
-/

namespace Diminuto.FdMap

/-- `malloc(3)` gives memory of the size it is asked for: as many pointers as fit behind the first eight bytes. -/
def Honest (malloc : BitVec 64 → Option (List (BitVec 64))) : Prop := ∀ n l, malloc n = some l → l.length = (n.toNat - 8) / 8

/-- Memory with something in it, up to a limit. -/
def heap (limit : Nat) (n : BitVec 64) : Option (List (BitVec 64)) :=
  if n.toNat ≤ limit then some (List.replicate ((n.toNat - 8) / 8) 0xdeadbeef#64) else none

/-- A table is one for a number of descriptors, with a pointer for every one of them. -/
def Represents (t : Table) (n : Nat) (f : Nat → BitVec 64) : Prop :=
  ∀ fd : BitVec 32, if 0 ≤ fd.toInt ∧ fd.toInt < n then ∃ i, ref t fd = some i ∧ load t i = some (f fd.toNat) else ref t fd = none

/-- The string in a buffer. -/
def text (buffer : List Byte) : List Byte := buffer.takeWhile (· ≠ 0#8)

end Diminuto.FdMap
