/-!
# Model of the Memory feature

Models `diminuto_memory_power`, `diminuto_memory_is_power`, `diminuto_memory_aligned`
(`Diminuto/src/diminuto_memory.c:130-184`) and `diminuto_memory_alignment`
(`Diminuto/inc/com/diag/diminuto/diminuto_memory.h:98-102`).  `size_t` has 64 bits.
A loop that has not ended after as many iterations as the argument of the loop function says
is the result `none`.  Of `diminuto_memory_aligned` only the arguments that it computes for
`posix_memalign` are modelled.
-/

namespace Diminuto.Memory

/-- The loop of `diminuto_memory_power`, `Diminuto/src/diminuto_memory.c:134-136`. -/
def powerLoop (alignment : BitVec 64) : Nat → BitVec 64 → Option (BitVec 64)
  | 0, _ => none
  | fuel + 1, power =>
    if 0 < power ∧ power < alignment then powerLoop alignment fuel (power <<< 1) else some power

/-- `diminuto_memory_power`, `Diminuto/src/diminuto_memory.c:130-139`; 65 iterations suffice, the
variable then being zero. -/
def power (alignment : BitVec 64) : Option (BitVec 64) := powerLoop alignment 65 1

/-- The loop of `diminuto_memory_is_power`, `Diminuto/src/diminuto_memory.c:145-150`. -/
def bitsLoop : Nat → BitVec 64 → Nat → Option Nat
  | 0, _, _ => none
  | fuel + 1, value, bits =>
    if value > 0 then
      bitsLoop fuel (value >>> 1) (if value &&& 1 ≠ 0 then bits + 1 else bits)
    else some bits

/-- `diminuto_memory_is_power`, `Diminuto/src/diminuto_memory.c:141-153`. -/
def isPower (value : BitVec 64) : Option Bool := (bitsLoop 65 value 0).map (· == 1)

/-- `diminuto_memory_alignment`,
`Diminuto/inc/com/diag/diminuto/diminuto_memory.h:98-102`. -/
def alignment (size align : BitVec 64) : BitVec 64 :=
  (size + (align - 1)) &&& ~~~(align - 1)

/-- The alignment and the size that `diminuto_memory_aligned` passes to `posix_memalign`,
`Diminuto/src/diminuto_memory.c:165-168`; `sizeof(void *)` is 8. -/
def aligned (align size : BitVec 64) : BitVec 64 × BitVec 64 :=
  let align := alignment align 8
  (align, alignment size align)

end Diminuto.Memory
