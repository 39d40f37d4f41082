import Verif.Fletcher

/-!
# Model of the conversion of numbers and ports

`Diminuto/src/diminuto_number.c` and the conversions of ports in `Diminuto/src/diminuto_ipc.c:44-80`.  A string is the list of its characters, without the
terminating NUL, and a pointer into it is what is left of it.  `strtoull(3)` and `strtoll(3)` are those of glibc with base 0 in the C locale; there they
are not distinct functions but one with a different limit.
-/

namespace Diminuto.Number

/-- `isspace(3)` in the C locale. -/
def isSpace (b : Byte) : Bool := b = 32#8 || (9#8 ≤ b && b ≤ 13#8)

/-- The value of a character as a digit, if it is a digit or a letter. -/
def digit (b : Byte) : Option Nat :=
  if 48#8 ≤ b && b ≤ 57#8 then some (b.toNat - 48)
  else if 97#8 ≤ b && b ≤ 122#8 then some (b.toNat - 97 + 10)
  else if 65#8 ≤ b && b ≤ 90#8 then some (b.toNat - 65 + 10)
  else none

/-- The loop over the digits: the number of them, the value, and what is left. -/
def digits (base : Nat) (count value : Nat) : List Byte → Nat × Nat × List Byte
  | [] => (count, value, [])
  | b :: r =>
    match digit b with
    | none => (count, value, b :: r)
    | some d => if d < base then digits base (count + 1) (value * base + d) r else (count, value, b :: r)

/-- The sign: whether it is a minus, and what is left. -/
def sign (t : List Byte) : Bool × List Byte :=
  if t.head? = some 45#8 then (true, t.tail) else if t.head? = some 43#8 then (false, t.tail) else (false, t)

/-- The number after the sign: the magnitude and what is left; nothing, if there is no number.  After `0x` without a digit there is only the zero. -/
def magnitude (u : List Byte) : Option (Nat × List Byte) :=
  if u.head? = some 48#8 then
    if u[1]? = some 120#8 ∨ u[1]? = some 88#8 then
      if (digits 16 0 0 (u.drop 2)).1 = 0 then some (0, u.drop 1) else some (digits 16 0 0 (u.drop 2)).2
    else some (digits 8 0 0 u).2
  else if (digits 10 0 0 u).1 = 0 then none
  else some (digits 10 0 0 u).2

/-- What `strtoull(3)` and `strtoll(3)` have in common: whether there is a minus, the magnitude, and what is left; nothing, if there is no number. -/
def scan (s : List Byte) : Option (Bool × Nat × List Byte) :=
  (magnitude (sign (s.dropWhile isSpace)).2).map fun m => ((sign (s.dropWhile isSpace)).1, m)

/-- The errors that `errno` may be set to. -/
inductive Errno where
  | range | invalid
deriving DecidableEq

/-- `strtoull(s, &e, 0)`: the value, what is left, and `errno` if it is set. -/
def strtoull (s : List Byte) : Nat × List Byte × Option Errno :=
  match scan s with
  | none => (0, s, none)
  | some (negative, value, r) =>
    if value < 2 ^ 64 then (if negative then (2 ^ 64 - value) % 2 ^ 64 else value, r, none)
    else (2 ^ 64 - 1, r, some .range)

/-- `strtoll(s, &e, 0)`. -/
def strtoll (s : List Byte) : Int × List Byte × Option Errno :=
  match scan s with
  | none => (0, s, none)
  | some (negative, value, r) =>
    if negative then (if value ≤ 2 ^ 63 then (-(value : Int), r, none) else (-2 ^ 63, r, some .range))
    else (if value < 2 ^ 63 then ((value : Int), r, none) else (2 ^ 63 - 1, r, some .range))

/-- `diminuto_number_unsigned`, `Diminuto/src/diminuto_number.c:17-28`: the number, the pointer that it returns, and `errno` if it is set. -/
def unsigned (s : List Byte) : Nat × List Byte × Option Errno :=
  let (n, e, x) := strtoull s
  (n, e, if e ≠ [] then some .invalid else x)

/-- `diminuto_number_signed`, `Diminuto/src/diminuto_number.c:30-41`. -/
def signed (s : List Byte) : Int × List Byte × Option Errno :=
  let (n, e, x) := strtoll s
  (n, e, if e ≠ [] then some .invalid else x)

/-- `diminuto_ipc_port`, `Diminuto/src/diminuto_ipc.c:44-68`.  `getservbyname(3)` is an argument. -/
def port (service : List Byte → Option (BitVec 16)) (s : List Byte) : BitVec 16 :=
  let sp := if s.head? = some 58#8 then s.tail else s
  match service sp with
  | some p => p
  | none =>
    let (temp, e, _) := unsigned sp
    if e ≠ [] then 0 else if temp > 65535 then 0 else BitVec.ofNat 16 temp

/-- What `printf(3)` prints for `%u`. -/
def decimal (n : Nat) : List Byte :=
  if n < 10 then [BitVec.ofNat 8 (48 + n)] else decimal (n / 10) ++ [BitVec.ofNat 8 (48 + n % 10)]

/-- `diminuto_ipc_port2string`, `Diminuto/src/diminuto_ipc.c:70-80`: the buffer afterwards, of which the given number of bytes may be written; the bytes after the
terminating NUL are left as they are, except the last one. -/
def port2string (p : BitVec 16) (buffer : List Byte) : List Byte :=
  if buffer.length > 0 then
    let t := (decimal p.toNat).take (buffer.length - 1)
    (t ++ 0#8 :: buffer.drop (t.length + 1)).set (buffer.length - 1) 0#8
  else buffer

/-- The string in a buffer. -/
def text (buffer : List Byte) : List Byte := buffer.takeWhile (· ≠ 0#8)

end Diminuto.Number
