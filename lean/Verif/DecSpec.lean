import Verif.Dec
import Verif.NumberSpec

/-!
# Specification: the tool that converts numbers
-/

namespace Diminuto.Dec

open Diminuto.Number (Reads White)

/-- The number with its two lower bytes exchanged. -/
def reversed16 (n : Nat) : Nat := n % 256 * 256 + n / 256 % 256

/-- The number with its four lower bytes in the reverse order. -/
def reversed32 (n : Nat) : Nat := n % 256 * 16777216 + n / 256 % 256 * 65536 + n / 65536 % 256 * 256 + n / 16777216 % 256

/-- What a command does to a number. -/
def meaning (little : Bool) (c : Command) (n : Nat) : Nat :=
  match c with
  | .dec | .oct | .hex => n
  | .ntohs | .htons => if little then reversed16 n else n % 65536
  | .ntohl | .htonl => if little then reversed32 n else n % 4294967296

/-- A string is a number, and then nothing or white space. -/
def IsNumber (s : List Byte) (n : Nat) : Prop := n < 2 ^ 64 ∧ ∃ r, Reads s false n r ∧ (r = [] ∨ ∃ b t, r = b :: t ∧ White b)

/-- Names. -/
def called : Command → String
  | .oct => "oct" | .dec => "dec" | .hex => "hex" | .ntohs => "ntohs" | .htons => "htons" | .ntohl => "ntohl" | .htonl => "htonl"

end Diminuto.Dec
