import Verif.Basics
import Verif.NumberSpec

/-!
# What the small features are meant to do
-/

namespace Diminuto.Basics
open Pin (ascii)

/-- The bits of an array, the least significant one of each element first. -/
def bitsOf {w : Nat} (array : List (BitVec w)) : List Bool := array.flatMap fun e => (List.range w).map e.getLsbD

/-- Lexicographic order. -/
inductive Before : List Byte → List Byte → Prop where
  | nil {b : Byte} {t : List Byte} : Before [] (b :: t)
  | head {a b : Byte} {s t : List Byte} : a.toNat < b.toNat → Before (a :: s) (b :: t)
  | tail {a : Byte} {s t : List Byte} : Before s t → Before (a :: s) (a :: t)

/-- A string of C has no NUL in it. -/
def CString (s : List Byte) : Prop := 0#8 ∉ s

/-- The lower case. -/
def lower (c : Byte) : Byte := if 65 ≤ c.toNat ∧ c.toNat ≤ 90 then c + 32#8 else c

/-- The words for true, `Diminuto/src/diminuto_testify.c:25-31` and `:43`. -/
def yes : List (List Byte) := ["asserted", "active", "activated", "closed", "confirmed", "enabled", "high", "true", "up", "yes", "on"].map ascii

/-- The words for false, `Diminuto/src/diminuto_testify.c:34-38` and `:46-47`. -/
def no : List (List Byte) := ["disabled", "deasserted", "denied", "down", "deactivated", "false", "inactive", "no", "low", "off", "open"].map ascii

end Diminuto.Basics
