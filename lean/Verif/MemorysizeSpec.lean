import Verif.Memorysize

/-!
# Specification: the sizes of pages and of lines of the cache (C178)
-/

namespace Diminuto.Memorysize

/-- The first source, in an order, that has a size greater than zero, with the character that stands for it. -/
def First (sources : List (Option Int × Char)) (size : Int) (method : Nat) : Prop :=
  ∃ before c after, sources = before ++ (some size, c) :: after ∧ 0 < size ∧ method = c.toNat ∧ ∀ x ∈ before, ∀ n, x.1 = some n → n ≤ 0

/-- A file that is there is read and closed without an error. -/
def Clean : File → Prop
  | .absent => True
  | .present n closes => n ≠ none ∧ closes = true

/-- The number in a file, if it can be read. -/
def File.number : File → Option Int
  | .absent => none
  | .present n _ => n

end Diminuto.Memorysize
