import Verif.Phextool
import Verif.PhexSpec
import Verif.InternettoolSpec

/-!
# Specification: the tool that prints its input in hexadecimal (C175)
-/

namespace Diminuto.Phextool

open Phex

/-- An option that ends the program, and its status: the menu, or a length that is not a number. -/
inductive Ends : Opt → Nat → Prop
  | menu : Ends .menu 0
  | length {t : List Byte} (h : ¬ ∃ v, Internettool.Sized t v) : Ends (.length t) 1

/-- What an option says about the length of lines. -/
def saysLength : Opt → Option (List Byte)
  | .length t => some t
  | _ => none

/-- The variables are what the options say. -/
structure Says (opts : List Opt) (c : Config) : Prop where
  esc : c.esc = true ↔ .esc ∈ opts
  nl : c.nl = true ↔ .nl ∈ opts
  hex : c.hex = true ↔ .hex ∈ opts
  tee : c.tee = true ↔ .tee ∈ opts
  length : match (opts.filterMap saysLength).getLast? with
    | none => c.length = 80#64
    | some t => Internettool.Sized t c.length.toNat

/-- No nul is before an octal digit. -/
def Apart (input : List Byte) : Prop := ∀ p d q, input = p ++ 0#8 :: d :: q → ¬ (48 ≤ d.toNat ∧ d.toNat ≤ 55)

end Diminuto.Phextool
