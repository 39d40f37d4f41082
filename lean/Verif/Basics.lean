import Verif.Number
import Verif.Pin

/-!
# Model of several small features

Bits, Swap, Absolute, Minimum/Maximum Of, Comparator, and Testify.
-/

namespace Diminuto.Basics
open Number (strtoll)
open Pin (ascii)

/-! ## Bits -/

/-- `DIMINUTO_BITS_COUNT`, `Diminuto/inc/com/diag/diminuto/diminuto_bits.h:36-37`, for a type of so many bits.  `diminuto_widthof` is a `size_t`, so that this is arithmetic modulo 2^64. -/
def count (w bits : Nat) : Nat := ((BitVec.ofNat 64 bits + BitVec.ofNat 64 w - 1#64) / BitVec.ofNat 64 w).toNat

/-- `DIMINUTO_BITS_INDEX`, `Diminuto/inc/com/diag/diminuto/diminuto_bits.h:44-45`. -/
def index (w bit : Nat) : Nat := bit / w

/-- `DIMINUTO_BITS_OFFSET`, `Diminuto/inc/com/diag/diminuto/diminuto_bits.h:52-53`. -/
def offset (w bit : Nat) : Nat := bit % w

/-- `DIMINUTO_BITS_OR`, `Diminuto/inc/com/diag/diminuto/diminuto_bits.h:68-69`.  The types that are narrower than `int` are promoted to it, and the result is converted back, which does not change any bit
of these. -/
def or (w bit : Nat) : BitVec w := 1#w <<< offset w bit

/-- `DIMINUTO_BITS_AND`, `Diminuto/inc/com/diag/diminuto/diminuto_bits.h:76-77`. -/
def and (w bit : Nat) : BitVec w := ~~~(1#w <<< offset w bit)

/-- `DIMINUTO_BITS_MASK`, `Diminuto/inc/com/diag/diminuto/diminuto_bits.h:60-61`. -/
def mask (w : Nat) : BitVec w := ~~~(0#w)

/-- `DIMINUTO_BITS_GET` for an array of an unsigned type, `Diminuto/inc/com/diag/diminuto/diminuto_bits.h:84-85`.  The result `none` is an access outside of the array. -/
def get (w bit : Nat) (array : List (BitVec w)) : Option (BitVec w) := (array[index w bit]?).map fun e => (e &&& or w bit) >>> offset w bit

/-- The same for an array of a signed type, of which the right shift extends the sign. -/
def getSigned (w bit : Nat) (array : List (BitVec w)) : Option (BitVec w) := (array[index w bit]?).map fun e => (e &&& or w bit).sshiftRight (offset w bit)

/-- `DIMINUTO_BITS_SET`, `Diminuto/inc/com/diag/diminuto/diminuto_bits.h:92-93`. -/
def set (w bit : Nat) (array : List (BitVec w)) : Option (List (BitVec w)) := (array[index w bit]?).map fun e => array.set (index w bit) (e ||| or w bit)

/-- `DIMINUTO_BITS_CLEAR`, `Diminuto/inc/com/diag/diminuto/diminuto_bits.h:100-101`. -/
def clear (w bit : Nat) (array : List (BitVec w)) : Option (List (BitVec w)) := (array[index w bit]?).map fun e => array.set (index w bit) (e &&& and w bit)

/-! ## Swap -/

/-- `DIMINUTO_SWAP` of the variables at two addresses, `Diminuto/inc/com/diag/diminuto/diminuto_swap.h:26-31`. -/
def swap {w : Nat} (a b : Nat) (m : Nat → BitVec w) : Nat → BitVec w :=
  let m := fun x => if x = a then m a ^^^ m b else m x
  let m := fun x => if x = b then m b ^^^ m a else m x
  let m := fun x => if x = a then m a ^^^ m b else m x
  m

/-! ## Absolute -/

/-- `abs8` to `abs64`, `Diminuto/inc/com/diag/diminuto/diminuto_absolute.h:17-26`.  A type that is narrower than `int` is promoted and the result is converted back; in the others the negation of the least
value overflows, which is undefined behaviour, `none`. -/
def absolute (w : Nat) (v : BitVec w) : Option (BitVec w) :=
  if v.toInt < 0 then (if 32 ≤ w ∧ v = BitVec.intMin w then none else some (-v)) else some v

/-! ## Minimum and maximum of a type -/

/-- `((_TYPE_)1)<<(diminuto_widthof(_TYPE_)-1)`: a type that is narrower than `int` is promoted to it, but in another signed type the one is shifted into the sign, which is undefined behaviour, `none`,
unless the compiler defines it, as GNU C does. -/
def top (gnu signed : Bool) (w : Nat) : Option (BitVec w) := if signed && decide (32 ≤ w) && !gnu then none else some (1#w <<< (w - 1))

/-- `diminuto_minimumof`, `Diminuto/inc/com/diag/diminuto/diminuto_minmaxof.h:38`. -/
def minimumof (gnu signed : Bool) (w : Nat) : Option (BitVec w) := if signed then top gnu signed w else some 0#w

/-- `diminuto_maximumof`, `Diminuto/inc/com/diag/diminuto/diminuto_minmaxof.h:52`. -/
def maximumof (gnu signed : Bool) (w : Nat) : Option (BitVec w) := if signed then (top gnu signed w).map (~~~ ·) else some (~~~(0#w))

/-! ## Comparator -/

/-- `diminuto_compare_strings`, `Diminuto/src/diminuto_comparator.c:17-20`, and `diminuto_store_compare_strings`, `Diminuto/inc/com/diag/diminuto/diminuto_store.h:159-162`: `strcmp(3)` of strings, without
their NULs.  Characters are compared as `unsigned char`. -/
def compareStrings : List Byte → List Byte → Int
  | [], [] => 0
  | [], b :: _ => 0 - b.toNat
  | a :: _, [] => a.toNat
  | a :: s, b :: t => if a = b then compareStrings s t else (a.toNat : Int) - b.toNat

/-- `diminuto_compare_pointers`, `Diminuto/src/diminuto_comparator.c:22-25`: the difference, a 64-bit number, is converted to `int`.  The result `none` is signed overflow. -/
def comparePointers (a b : BitVec 64) : Option Int :=
  if a.toInt - b.toInt < -(2 ^ 63) ∨ 2 ^ 63 ≤ a.toInt - b.toInt then none else some (BitVec.ofInt 32 (a.toInt - b.toInt)).toInt

/-! ## Testify -/

/-- One of two characters. -/
def either (c : Byte) (l : List Byte) : Bool := c ∈ l

/-- `diminuto_testify`, `Diminuto/src/diminuto_testify.c:18-75`.  The value of `strtol(3)` is converted to `int32_t`. -/
def testify (testimony : Option (List Byte)) (otherwise : Int) : Int :=
  match testimony with
  | none => otherwise
  | some [] => otherwise
  | some (c :: t) =>
    if either c (ascii "aAcCeEhHtTuUyY") then 1
    else if either c (ascii "dDfFiInNlL") then 0
    else if either c (ascii "oO") then
      (match t with
      | [] => otherwise
      | d :: _ => if either d (ascii "nN") then 1 else if either d (ascii "fFpP") then 0 else otherwise)
    else if either c (ascii "0123456789") then
      (if (strtoll (c :: t)).2.1 = [] then (if BitVec.ofInt 32 (strtoll (c :: t)).1 = 0#32 then 0 else 1) else otherwise)
    else otherwise

end Diminuto.Basics
