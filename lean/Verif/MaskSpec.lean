import Verif.Mask

/-!
# What the Uninterruptible Section feature is meant to do
-/

namespace Diminuto.Mask

/-- Signals that can be in a set. -/
def Valid (signals : List Int) : Prop := ∀ n ∈ signals, (1 ≤ n ∧ n ≤ 64) ∧ n ≠ 32 ∧ n ≠ 33

instance (signals : List Int) : Decidable (Valid signals) := inferInstanceAs (Decidable (∀ n ∈ signals, _))

/-- A state that the system can have: what cannot be blocked is not, what is pending is blocked, and there are no other signals. -/
structure Sound (s : State) : Prop where
  kill : s.mask 9 = false
  stop : s.mask 19 = false
  pending : ∀ n, s.pending n = true → s.mask n = true ∧ n ≤ 64

/-- The program does not change the mask but by sections. -/
def Plain : Prog → Prop
  | .seq p q => Plain p ∧ Plain q
  | .mask _ => False
  | .sect _ p => Plain p
  | .attempt _ p => Plain p
  | _ => True

/-- The signals that have arrived, in order, when a program is executed, until it is cancelled, and whether it is. -/
def arrived : Prog → List Nat × Bool
  | .nop => ([], false)
  | .seq p q => if (arrived p).2 then arrived p else ((arrived p).1 ++ (arrived q).1, (arrived q).2)
  | .send n => ([n], false)
  | .mask _ => ([], false)
  | .cancel => ([], true)
  | .sect _ p => arrived p
  | .attempt signals p => if Valid signals then arrived p else ([], false)

/-- All the signals that arrive are signals. -/
def Signals : Prog → Prop
  | .seq p q => Signals p ∧ Signals q
  | .send n => n ≤ 64
  | .sect _ p => Signals p
  | .attempt _ p => Signals p
  | _ => True

end Diminuto.Mask
