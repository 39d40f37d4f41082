import Verif.Dump

/-!
# Specification: Dump (C54)
-/

namespace Diminuto.Dump

/-- The byte at an address, if it belongs to the data. -/
def byteAt (first : Nat) (data : List Byte) (a : Nat) : Option Byte := if first ≤ a then data[a - first]? else none

/-- What is shown at an address in hexadecimal. -/
def showByte (f : Format) (first : Nat) (data : List Byte) (a : Nat) : List Byte :=
  match byteAt first data a with
  | some b => hex f.upper 2 b.toNat
  | none => [f.byteskip, f.byteskip]

/-- What is shown at an address as a character. -/
def showChar (f : Format) (first : Nat) (data : List Byte) (a : Nat) : List Byte :=
  match byteAt first data a with
  | some b => [if 32 ≤ b.toNat ∧ b.toNat ≤ 126 then b else f.dot]
  | none => [f.charskip]

/-- The line that begins at an address. -/
def showLine (f : Format) (first : Nat) (data : List Byte) (a : Nat) : List Byte :=
  List.replicate f.indent 32#8 ++ hex f.upper 16 (a % 2 ^ 32) ++ f.addrsep ++
    (List.range' a f.wpl.toNat f.bpw.toNat).flatMap (fun w =>
      (List.range' w f.bpw.toNat).flatMap (showByte f first data) ++ f.wordsep) ++
    f.charsep ++ (List.range' a (f.bpw.toNat * f.wpl.toNat)).flatMap (showChar f first data) ++ f.lineend

/-- A number of lines. -/
def showLines (f : Format) (first : Nat) (data : List Byte) (a n : Nat) : List Byte :=
  (List.range' a n (f.bpw.toNat * f.wpl.toNat)).flatMap (showLine f first data)

/-- The number that is shown by hexadecimal digits. -/
def value (l : List Byte) : Nat :=
  l.foldl (fun v c => 16 * v + (if c.toNat < 58 then c.toNat - 48 else if c.toNat < 91 then c.toNat - 55 else c.toNat - 87)) 0

end Diminuto.Dump
