import Verif.Renametool

/-!
# Specification: the tool that renames and exchanges files (C174)
-/

namespace Diminuto.Renametool

/-- What is asked for: to rename a file, or to exchange two. -/
inductive Request where
  | rename (a b : List Byte)
  | exchange (a b : List Byte)

/-- `Asks argv r`: the arguments, of which the first one is the name of the program, ask for `r`. -/
inductive Asks : List (List Byte) → Request → Prop
  | rename {p a b : List Byte} (h : a ≠ [45#8, 120#8]) : Asks [p, a, b] (.rename a b)
  | exchange {p a b : List Byte} : Asks [p, [45#8, 120#8], a, b] (.exchange a b)

/-- What has to be there. -/
def Possible (fs : Names) : Request → Prop
  | .rename a b => fs a ≠ none ∧ fs b = none
  | .exchange a b => fs a ≠ none ∧ fs b ≠ none

/-- What has been done. -/
def Done (fs fs' : Names) : Request → Prop
  | .rename a b => fs' b = fs a ∧ fs' a = none ∧ ∀ n, n ≠ a → n ≠ b → fs' n = fs n
  | .exchange a b => fs' b = fs a ∧ fs' a = fs b ∧ ∀ n, n ≠ a → n ≠ b → fs' n = fs n

end Diminuto.Renametool
