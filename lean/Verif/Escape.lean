import Verif.Fletcher

/-!
# Model of the Escape feature

Models `Diminuto/src/diminuto_escape.c:17-144` (collapse), `:146-219` (expand)
and `:221-263` (trim).  A source string is the list of the bytes of the object
`from` points to; reading beyond it is undefined behaviour, `none`.  The result
is the list of the bytes stored through `tt`, in order, which start at `to`; the
returned count is `tt - to`, hence the length of that list.  The signedness of
`char` makes no difference: bytes from 0x80 up fail both range tests of expand
either way.
-/

namespace Diminuto.Escape

/-- The final `if (0 < tsize)`, `Diminuto/src/diminuto_escape.c:138-141` and
`:213-216`. -/
def finish (tsize : Nat) : List Byte := if 0 < tsize then [0#8] else []

/-- One hexadecimal digit, `Diminuto/src/diminuto_escape.c:83-94`. -/
def hexValue (c : Byte) : Option Nat :=
  if 0x30 ≤ c.toNat ∧ c.toNat ≤ 0x39 then some (c.toNat - 0x30)
  else if 0x61 ≤ c.toNat ∧ c.toNat ≤ 0x66 then some (0xa + c.toNat - 0x61)
  else if 0x41 ≤ c.toNat ∧ c.toNat ≤ 0x46 then some (0xA + c.toNat - 0x41)
  else none

/-- One octal digit, `Diminuto/src/diminuto_escape.c:115-120`. -/
def octalValue (c : Byte) : Option Nat :=
  if 0x30 ≤ c.toNat ∧ c.toNat ≤ 0x37 then some (c.toNat - 0x30) else none

/-- The digit loops, `Diminuto/src/diminuto_escape.c:82-95` (two hexadecimal
digits) and `:114-121` (three octal digits): at most `n` digits of radix
`radix` are accumulated in a byte; the number of digits and the byte. -/
def digits (value : Byte → Option Nat) (radix : Nat) : Nat → List Byte → Byte → Option (Nat × Byte)
  | 0, _, b => some (0, b)
  | _ + 1, [], _ => none
  | n + 1, c :: rest, b =>
    match value c with
    | none => some (0, b)
    | some v => do
      let (k, b') ← digits value radix n rest (BitVec.ofNat 8 (b.toNat * radix + v))
      some (k + 1, b')

/-- The `switch` cases giving one byte for one letter, and the default case,
`Diminuto/src/diminuto_escape.c:39-78` and `:126-130`. -/
def letter (c : Byte) : Byte :=
  if c = 0x61#8 then 0x07#8
  else if c = 0x62#8 then 0x08#8
  else if c = 0x66#8 then 0x0c#8
  else if c = 0x6e#8 then 0x0a#8
  else if c = 0x72#8 then 0x0d#8
  else if c = 0x74#8 then 0x09#8
  else if c = 0x76#8 then 0x0b#8
  else c

/-- `diminuto_escape_collapse`, `Diminuto/src/diminuto_escape.c:17-144`. -/
def collapse (ff : List Byte) (tsize : Nat) : Option (List Byte) :=
  if tsize ≤ 1 then some (finish tsize)
  else match ff with
  | [] => none
  | c :: rest =>
    if c = 0x00#8 then some (finish tsize)
    else if c = 0x5c#8 then
      match rest with
      | [] => none
      | d :: rest2 =>
        if d = 0x00#8 then collapse (d :: rest2) tsize
        else if d = 0x0a#8 then collapse rest2 tsize
        else if d = 0x0d#8 then collapse rest2 tsize
        else if d = 0x78#8 then
          match digits hexValue 16 2 rest2 0#8 with
          | none => none
          | some (0, _) => do
            let out ← collapse (d :: rest2) (tsize - 1)
            some (c :: out)
          | some (k + 1, b) => do
            let out ← collapse (rest2.drop (k + 1)) (tsize - 1)
            some (b :: out)
        else if (octalValue d).isSome then
          match digits octalValue 8 3 (d :: rest2) 0#8 with
          | none => none
          | some (k, b) => do
            let out ← collapse (rest2.drop (k - 1)) (tsize - 1)
            some (b :: out)
        else do
          let out ← collapse rest2 (tsize - 1)
          some (letter d :: out)
    else do
      let out ← collapse rest (tsize - 1)
      some (c :: out)
termination_by ff.length
decreasing_by all_goals (simp only [List.length_cons, List.length_drop]; omega)

/-- `strchr(special, c)` is not null, with `special` a C string (given without
its terminator); the terminator itself matches the NUL character
(`Diminuto/src/diminuto_escape.c:166`). -/
def inSpecial (special : Option (List Byte)) (c : Byte) : Bool :=
  match special with
  | none => false
  | some l => l.contains c || c == 0x00#8

/-- The printable test, `Diminuto/src/diminuto_escape.c:166`. -/
def printable (c : Byte) : Bool :=
  (0x20 ≤ c.toNat && c.toNat ≤ 0x5b) || (0x5d ≤ c.toNat && c.toNat ≤ 0x7e)

/-- The table of hexadecimal digits, `Diminuto/src/diminuto_escape.c:146-151`. -/
def HEX (n : Nat) : Byte :=
  if n < 10 then BitVec.ofNat 8 (0x30 + n) else BitVec.ofNat 8 (0x61 + (n - 10))

/-- The chain of single-letter escapes, `Diminuto/src/diminuto_escape.c:170-197`. -/
def shortEscape (c : Byte) : Option Byte :=
  if c = 0x5c#8 then some 0x5c#8
  else if c = 0x00#8 then some 0x30#8
  else if c = 0x07#8 then some 0x61#8
  else if c = 0x08#8 then some 0x62#8
  else if c = 0x0c#8 then some 0x66#8
  else if c = 0x0a#8 then some 0x6e#8
  else if c = 0x0d#8 then some 0x72#8
  else if c = 0x09#8 then some 0x74#8
  else if c = 0x0b#8 then some 0x76#8
  else none

/-- `diminuto_escape_expand`, `Diminuto/src/diminuto_escape.c:153-219`. -/
def expand (special : Option (List Byte)) : List Byte → Nat → Nat → Option (List Byte)
  | _, 0, tsize => some (finish tsize)
  | ff, fsize + 1, tsize =>
    if tsize ≤ 1 then some (finish tsize)
    else match ff with
    | [] => none
    | c :: rest =>
      if !inSpecial special c && printable c then do
        let out ← expand special rest fsize (tsize - 1)
        some (c :: out)
      else if tsize ≤ 2 then some (finish tsize)
      else match shortEscape c with
      | some e => do
        let out ← expand special rest fsize (tsize - 2)
        some (0x5c#8 :: e :: out)
      | none =>
        if inSpecial special c then do
          let out ← expand special rest fsize (tsize - 2)
          some (0x5c#8 :: c :: out)
        else if tsize ≤ 4 then some (finish tsize)
        else do
          let out ← expand special rest fsize (tsize - 4)
          some (0x5c#8 :: 0x78#8 :: HEX (c.toNat / 16 % 16) :: HEX (c.toNat % 16) :: out)

/-- Number of trailing blanks of a string given in reverse,
`Diminuto/src/diminuto_escape.c:230-233`. -/
def blanks : List Byte → Nat
  | [] => 0
  | c :: rest => if c = 0x20#8 then blanks rest + 1 else 0

/-- The length kept by `diminuto_escape_trim`,
`Diminuto/src/diminuto_escape.c:226-244`; `s` is the source up to `strnlen`. -/
def trimSize (s : List Byte) : Nat :=
  let n := blanks s.reverse
  let size := s.length - n
  if size = 0 then size
  else if n = 0 then size
  else if s[size - 1]? ≠ some 0x5c#8 ∨ (1 < size ∧ s[size - 2]? = some 0x5c#8) then size
  else size + 1

/-- `diminuto_escape_trim`, `Diminuto/src/diminuto_escape.c:221-263`: the bytes
stored at `to` and the returned size.  `s` is the source up to `strnlen`.  The
pointer `from - 1` formed for an empty source is not dereferenced and is not
modelled. -/
def trim (s : List Byte) (tsize : Nat) : List Byte × Nat :=
  let size := trimSize s
  let size := if tsize < size then tsize else size
  if tsize = 0 then (s.take size, size)
  else if tsize > size then (s.take size ++ [0#8], size)
  else (s.take (size - 1) ++ [0#8], size - 1)

end Diminuto.Escape
