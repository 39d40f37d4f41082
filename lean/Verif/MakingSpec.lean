import Verif.Making

/-! # Specification: initializing and finalizing timers and threads -/

namespace Diminuto.Making

/-- These POSIX objects are there, and no others. -/
def Holds (s : S) (rs : List Res) : Prop := ∀ r, s.live r = true ↔ r ∈ rs

/-- All that a timer has. -/
def whole : List Res := [.attributes, .mutexattr, .mutex, .condition, .timer]

/-- Either a function or a signal, and not both. -/
def One (fp : Option Nat) (signum : Int) : Prop := (fp.isSome = true ∧ signum ≤ 0) ∨ (fp = none ∧ 0 < signum)

/-- What is to happen when the timer expires. -/
def asked (fp : Option Nat) (signum : Int) : Notify := match fp with
  | some f => .thread f
  | none => .signal signum

/-- The calls that were made all succeeded. -/
def Fine (w : World) (s : S) : Prop := ∀ c ∈ s.log, ok w c = true

/-- The number in the range that is nearest to another. -/
def Nearest (lo hi p q : Int) : Prop := lo ≤ q ∧ q ≤ hi ∧ ∀ x, lo ≤ x → x ≤ hi → (p - q).natAbs ≤ (p - x).natAbs

/-- The scheduler that is set is the given one, and the priority that is set is, of those that it has, the nearest to the given one. -/
def Scheduled (w : World) (s : S) (scheduler priority : Int) : Prop :=
  (∀ x, Call.setPolicy x ∈ s.log → x = scheduler) ∧
  (w (.minimum scheduler) ≤ w (.maximum scheduler) → ∀ q, Call.setParam q ∈ s.log → Nearest (w (.minimum scheduler)) (w (.maximum scheduler)) priority q)

end Diminuto.Making
