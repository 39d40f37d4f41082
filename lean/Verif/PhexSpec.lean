import Verif.Phex

/-!
# Specification: print hexadecimal
-/

namespace Diminuto.Phex

/-- The value of a hexadecimal digit. -/
def hexValue (b : Byte) : Nat := if b.toNat < 58 then b.toNat - 48 else b.toNat - 87

/-- Where a reader is: between characters, after a backslash, after `\x`, after the first of two digits. -/
inductive Reader
  | plain | escape | hex | digit (first : Nat)
  deriving DecidableEq

/-- The character that a one-character escape sequence stands for. -/
def simple (d : Byte) : Byte :=
  if d = ch '0' then 0#8 else if d = ch 'a' then 7#8 else if d = ch 'b' then 8#8 else if d = ch 't' then 9#8
  else if d = ch 'n' then 10#8 else if d = ch 'v' then 11#8 else if d = ch 'f' then 12#8 else if d = ch 'r' then 13#8 else d

/-- Reads one character of what has been printed: newlines are skipped, escape sequences have one character, or x and two hexadecimal
digits. -/
def readStep (r : Reader) (c : Byte) : Reader × List Byte :=
  match r with
  | .plain => if c = ch '\n' then (.plain, []) else if c = ch '\\' then (.escape, []) else (.plain, [c])
  | .escape => if c = ch 'x' then (.hex, []) else (.plain, [simple c])
  | .hex => (.digit (hexValue c), [])
  | .digit first => (.plain, [BitVec.ofNat 8 (16 * first + hexValue c)])

/-- Reads what has been printed. -/
def read : Reader → List Byte → Reader × List Byte
  | r, [] => (r, [])
  | r, c :: cs => ((read (readStep r c).1 cs).1, (readStep r c).2 ++ (read (readStep r c).1 cs).2)

/-- The column after printing, starting in a column. -/
def column (col : Nat) (out : List Byte) : Nat := out.foldl (fun col b => if b = ch '\n' then 0 else col + 1) col

/-- How many columns the first printed character takes. -/
def width : List Byte → Nat
  | a :: b :: _ => if a = ch '\\' then (if b = ch 'x' then 4 else 2) else 1
  | _ => 1

end Diminuto.Phex
