import Verif.Number

/-!
# Specification: the conversion of numbers and ports
-/

namespace Diminuto.Number

/-- A character is a digit of a base with a value. -/
def IsDigit (base : Nat) (b : Byte) (v : Nat) : Prop :=
  v < base ∧ ((v < 10 ∧ b.toNat = 48 + v) ∨ (10 ≤ v ∧ (b.toNat = 97 + (v - 10) ∨ b.toNat = 65 + (v - 10))))

/-- A string of digits and its value; the last digit is the one with the least weight. -/
inductive Denotes (base : Nat) : List Byte → Nat → Prop
  | one {b : Byte} {v : Nat} : IsDigit base b v → Denotes base [b] v
  | more {s : List Byte} {b : Byte} {n v : Nat} : Denotes base s n → IsDigit base b v → Denotes base (s ++ [b]) (n * base + v)

/-- The rest of a string does not go on with a digit. -/
def Ends (base : Nat) (r : List Byte) : Prop := ∀ b t v, r = b :: t → ¬ IsDigit base b v

/-- A numeral as in C: hexadecimal with `0x` or `0X`, octal with `0`, decimal otherwise. -/
inductive Numeral : List Byte → Nat → Nat → Prop
  | hexadecimal {x : Byte} {s : List Byte} {n : Nat} : (x = 120#8 ∨ x = 88#8) → Denotes 16 s n → Numeral (48#8 :: x :: s) 16 n
  | octal {s : List Byte} {n : Nat} : Denotes 8 s n → Numeral (48#8 :: s) 8 n
  | zero : Numeral [48#8] 8 0
  | decimal {s : List Byte} {n : Nat} : Denotes 10 s n → s.head? ≠ some 48#8 → Numeral s 10 n

/-- White space. -/
def White (b : Byte) : Prop := b.toNat = 32 ∨ (9 ≤ b.toNat ∧ b.toNat ≤ 13)

/-- A sign and whether it is a minus. -/
inductive Sign : List Byte → Bool → Prop
  | none : Sign [] false
  | plus : Sign [43#8] false
  | minus : Sign [45#8] true

/-- What goes on after an octal numeral that is only a zero must not make it hexadecimal. -/
def Apart (s r : List Byte) : Prop := s = [48#8] → ∀ x y t v, r = x :: y :: t → (x = 120#8 ∨ x = 88#8) → ¬ IsDigit 16 y v

/-- A string begins with white space, a sign, and a numeral that is as long as possible. -/
def Reads (s : List Byte) (negative : Bool) (n : Nat) (r : List Byte) : Prop :=
  ∃ w g t base, s = w ++ (g ++ (t ++ r)) ∧ (∀ b ∈ w, White b) ∧ Sign g negative ∧ Numeral t base n ∧ Ends base r ∧ Apart t r

end Diminuto.Number
