import Verif.EscapeLemmas

/-!
# Specification: the escape sequences of the C language
-/

namespace Diminuto.Escape

/-- `c` is the hexadecimal digit of value `v`. -/
def HexDigit (c : Byte) (v : Nat) : Prop :=
  (v < 10 ∧ c.toNat = 0x30 + v) ∨
  (10 ≤ v ∧ v < 16 ∧ (c.toNat = 0x61 + (v - 10) ∨ c.toNat = 0x41 + (v - 10)))

/-- `c` is the octal digit of value `v`. -/
def OctDigit (c : Byte) (v : Nat) : Prop := v < 8 ∧ c.toNat = 0x30 + v

/-- `s` does not begin with a character for which `P` holds. -/
def StartsNot (P : Byte → Prop) (s : List Byte) : Prop := ∀ c, s.head? = some c → ¬ P c

/-- The letters with a meaning of their own: a b f n r t v. -/
def named : List (Byte × Byte) :=
  [(0x61#8, 0x07#8), (0x62#8, 0x08#8), (0x66#8, 0x0c#8), (0x6e#8, 0x0a#8), (0x72#8, 0x0d#8),
   (0x74#8, 0x09#8), (0x76#8, 0x0b#8)]

/-- `Denotes s r`: the source `s` (without its terminator) means the characters `r`. -/
inductive Denotes : List Byte → List Byte → Prop
  | nil : Denotes [] []
  /-- A backslash at the very end means nothing. -/
  | dangling : Denotes [0x5c#8] []
  | plain {c : Byte} {s r : List Byte} (h0 : c ≠ 0#8) (h : c ≠ 0x5c#8) (d : Denotes s r) :
      Denotes (c :: s) (c :: r)
  /-- An escaped line end means nothing. -/
  | continued {c : Byte} {s r : List Byte} (h : c = 0x0a#8 ∨ c = 0x0d#8) (d : Denotes s r) :
      Denotes (0x5c#8 :: c :: s) r
  | letter {c v : Byte} {s r : List Byte} (h : (c, v) ∈ named) (d : Denotes s r) :
      Denotes (0x5c#8 :: c :: s) (v :: r)
  /-- Anything else stands for itself. -/
  | itself {c : Byte} {s r : List Byte} (h0 : c ≠ 0#8) (h1 : c ≠ 0x0a#8) (h2 : c ≠ 0x0d#8)
      (h3 : c ≠ 0x78#8) (h4 : ∀ v, ¬ OctDigit c v) (h5 : ∀ v, (c, v) ∉ named) (d : Denotes s r) :
      Denotes (0x5c#8 :: c :: s) (c :: r)
  | hex2 {c1 c2 : Byte} {v1 v2 : Nat} {s r : List Byte} (h1 : HexDigit c1 v1) (h2 : HexDigit c2 v2)
      (d : Denotes s r) :
      Denotes (0x5c#8 :: 0x78#8 :: c1 :: c2 :: s) (BitVec.ofNat 8 (16 * v1 + v2) :: r)
  | hex1 {c1 : Byte} {v1 : Nat} {s r : List Byte} (h1 : HexDigit c1 v1)
      (hs : StartsNot (fun c => ∃ v, HexDigit c v) s) (d : Denotes s r) :
      Denotes (0x5c#8 :: 0x78#8 :: c1 :: s) (BitVec.ofNat 8 v1 :: r)
  /-- Without a digit the backslash stands for itself. -/
  | hex0 {s r : List Byte} (hs : StartsNot (fun c => ∃ v, HexDigit c v) s)
      (d : Denotes (0x78#8 :: s) r) : Denotes (0x5c#8 :: 0x78#8 :: s) (0x5c#8 :: r)
  /-- Only the lower eight bits of an octal number count. -/
  | oct3 {c1 c2 c3 : Byte} {v1 v2 v3 : Nat} {s r : List Byte} (h1 : OctDigit c1 v1)
      (h2 : OctDigit c2 v2) (h3 : OctDigit c3 v3) (d : Denotes s r) :
      Denotes (0x5c#8 :: c1 :: c2 :: c3 :: s) (BitVec.ofNat 8 (64 * v1 + 8 * v2 + v3) :: r)
  | oct2 {c1 c2 : Byte} {v1 v2 : Nat} {s r : List Byte} (h1 : OctDigit c1 v1) (h2 : OctDigit c2 v2)
      (hs : StartsNot (fun c => ∃ v, OctDigit c v) s) (d : Denotes s r) :
      Denotes (0x5c#8 :: c1 :: c2 :: s) (BitVec.ofNat 8 (8 * v1 + v2) :: r)
  | oct1 {c1 : Byte} {v1 : Nat} {s r : List Byte} (h1 : OctDigit c1 v1)
      (hs : StartsNot (fun c => ∃ v, OctDigit c v) s) (d : Denotes s r) :
      Denotes (0x5c#8 :: c1 :: s) (BitVec.ofNat 8 v1 :: r)

end Diminuto.Escape
