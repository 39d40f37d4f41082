import Verif.Ipcalc

/-!
# Specification: the tool that calculates addresses
-/

namespace Diminuto.Ipcalc

/-- The number that an address is, as it is written: the first byte in memory has the most weight. -/
def number (little : Bool) (v : BitVec 32) : Nat :=
  let byte := fun i => v.toNat / 256 ^ i % 256
  if little then byte 0 * 16777216 + byte 1 * 65536 + byte 2 * 256 + byte 3 else byte 3 * 16777216 + byte 2 * 65536 + byte 1 * 256 + byte 0

/-- A mask for networks of `2 ^ bits` addresses. -/
def IsMask (little : Bool) (bits : Nat) (m : BitVec 32) : Prop := bits ≤ 32 ∧ number little m = 2 ^ 32 - 2 ^ bits

end Diminuto.Ipcalc
