import Verif.Fletcher

/-!
# Model of the Dump feature

`Diminuto/src/diminuto_dump.c`.  Addresses are of type `uintptr_t` and wrap around.  What is printed is returned as a list of characters; errors
of the stream are ignored, as the C code does.  Reading outside of the data, which is undefined behaviour, is `none`, and so is running out of
fuel: a loop that does not terminate is `none` for any fuel.
-/

namespace Diminuto.Dump

/-- The parameters that determine the format, `Diminuto/src/diminuto_dump.c:19-31`.  The `upper` flag is that of line 19. -/
structure Format where
  upper : Bool
  dot : Byte
  indent : Nat
  bpw : BitVec 64
  wpl : BitVec 64
  addrsep : List Byte
  wordsep : List Byte
  charsep : List Byte
  byteskip : Byte
  charskip : Byte
  lineend : List Byte

/-- A hexadecimal digit as printed by the `X` and `x` conversions, `Diminuto/src/diminuto_dump.c:49-55`. -/
def digit (upper : Bool) (n : Nat) : Byte := BitVec.ofNat 8 (if n < 10 then 48 + n else if upper then 55 + n else 87 + n)

/-- The least `k` digits of a number: `%2.2x` and `%16.16x`, `Diminuto/src/diminuto_dump.c:50-54`. -/
def hex (upper : Bool) : Nat → Nat → List Byte
  | 0, _ => []
  | k + 1, n => hex upper k (n / 16) ++ [digit upper (n % 16)]

/-- `fprintf(fp, addressformat, here)`, `Diminuto/src/diminuto_dump.c:78`.  The conversion is `%x`, for an `unsigned int`, but the argument is a
`uintptr_t`; where this has 64 bits the behaviour is undefined according to the standard, and in fact the most significant 32 bits are ignored. -/
def address (upper : Bool) (here : BitVec 64) : List Byte := hex upper 16 (here.toNat % 2 ^ 32)

/-- The loop over the bytes of a word, `Diminuto/src/diminuto_dump.c:90-99`.  Returns what is printed, `hh` and `pp`. -/
def bytes (f : Format) (data : List Byte) (first last word : BitVec 64) : Nat → BitVec 64 → Nat → Option (List Byte × BitVec 64 × Nat)
  | 0, _, _ => none
  | fuel + 1, hh, pp =>
    if hh < word then
      if !(first ≤ hh && hh < last) then
        (bytes f data first last word fuel (hh + 1#64) pp).bind fun r => some ([f.byteskip, f.byteskip] ++ r.1, r.2)
      else
        data[pp]?.bind fun b => (bytes f data first last word fuel (hh + 1#64) (pp + 1)).bind fun r => some (hex f.upper 2 b.toNat ++ r.1, r.2)
    else some ([], hh, pp)

/-- The loop over the words of a line, `Diminuto/src/diminuto_dump.c:86-103`. -/
def words (f : Format) (data : List Byte) (first last line : BitVec 64) (fuel : Nat) : Nat → BitVec 64 → Nat → Option (List Byte × BitVec 64 × Nat)
  | 0, _, _ => none
  | n + 1, hh, pp =>
    if hh < line then
      (bytes f data first last (hh + f.bpw) fuel hh pp).bind fun r =>
      (words f data first last line fuel n r.2.1 r.2.2).bind fun q =>
      some (r.1 ++ f.wordsep ++ q.1, q.2)
    else some ([], hh, pp)

/-- The loop over the characters of a line, `Diminuto/src/diminuto_dump.c:110-122`. -/
def chars (f : Format) (data : List Byte) (first last line : BitVec 64) : Nat → BitVec 64 → Nat → Option (List Byte × BitVec 64 × Nat)
  | 0, _, _ => none
  | fuel + 1, hh, pp =>
    if hh < line then
      if !(first ≤ hh && hh < last) then
        (chars f data first last line fuel (hh + 1#64) pp).bind fun r => some (f.charskip :: r.1, r.2)
      else
        data[pp]?.bind fun b =>
        (chars f data first last line fuel (hh + 1#64) (pp + 1)).bind fun r =>
        some ((if 32#8 ≤ b && b ≤ 126#8 then b else f.dot) :: r.1, r.2)
    else some ([], hh, pp)

/-- The loop over the lines, `Diminuto/src/diminuto_dump.c:72-128`. -/
def lines (f : Format) (data : List Byte) (first last stop : BitVec 64) (fuel : Nat) : Nat → BitVec 64 → Nat → Option (List Byte)
  | 0, _, _ => none
  | n + 1, here, pointer =>
    if here < stop then
      let line := here + f.bpw * f.wpl
      (words f data first last line fuel fuel here pointer).bind fun w =>
      (chars f data first last line fuel here pointer).bind fun c =>
      (lines f data first last stop fuel n c.2.1 c.2.2).bind fun r =>
      some (List.replicate f.indent 32#8 ++ address f.upper here ++ f.addrsep ++ w.1 ++ f.charsep ++ c.1 ++ f.lineend ++ r)
    else some []

/-- `diminuto_dump_generic`, `Diminuto/src/diminuto_dump.c:15-129`.  `start` is the address to be shown: that of the data (line 60) or the
one that is given to the function.  The length of the data is the `length` parameter. -/
def dump (f : Format) (data : List Byte) (start : BitVec 64) (fuel : Nat) : Option (List Byte) :=
  let last := start + BitVec.ofNat 64 data.length
  let mask := f.bpw * f.wpl - 1#64
  let begin := start &&& ~~~mask
  let stop := (last + mask) &&& ~~~mask
  lines f data start last stop fuel fuel begin 0

/-- `diminuto_dump_general`, `Diminuto/inc/com/diag/diminuto/diminuto_dump.h:85-96`. -/
def general (upper : Bool) (dot : Byte) (indent : Nat) : Format :=
  ⟨upper, dot, indent, 4#64, 4#64, [58#8, 32#8], [32#8], [124#8], 32#8, 32#8, [124#8, 10#8]⟩

end Diminuto.Dump
