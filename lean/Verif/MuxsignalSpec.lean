import Verif.Muxsignal

/-!
# Specification: the signals of a multiplexer (C180)
-/

namespace Diminuto.Muxsignal

/-- A signal that an application can use. -/
def Usable (signum : Int) : Prop := 1 ≤ signum ∧ signum ≤ 64 ∧ signum ≠ 32 ∧ signum ≠ 33

/-- Which signals are blocked after calls: of each signal the last call decides, if there is one. -/
inductive Blocks (initial : Int → Bool) : List Call → Int → Bool → Prop
  | none {n : Int} : Blocks initial [] n (initial n)
  | this {before : List Call} {n : Int} (b : Bool) : Usable n → Blocks initial (before ++ [⟨b, n⟩]) n b
  | other {before : List Call} {n : Int} {c : Call} {b : Bool} : Blocks initial before n b → c.signum ≠ n ∨ ¬ Usable n → Blocks initial (before ++ [c]) n b

end Diminuto.Muxsignal
