import Verif.Options

/-!
# Specification: sockets with options, and system calls that set them or fail
-/

namespace Diminuto.Options

/-- The options of sockets, by descriptor. -/
structure S where
  flags : Int → BitVec 32
  value : Int → Name → Int
  linger : Int → Linger

/-- `fcntl(F_SETFL)` sets the flags (their lower half; `long` is wider) or fails. -/
def HonestFlags (setfl : Int → BitVec 64 → S → Int × S) : Prop :=
  ∀ fd v s, ((setfl fd v s).1 < 0 ∧ (setfl fd v s).2 = s) ∨
    (0 ≤ (setfl fd v s).1 ∧ (setfl fd v s).2 = { s with flags := fun x => if x = fd then v.setWidth 32 else s.flags x })

/-- `setsockopt(2)` sets the option or fails. -/
def HonestOption (set : Int → Name → Int → S → Answer × S) : Prop :=
  ∀ fd n v s, ((set fd n v s).1 ≠ .ok ∧ (set fd n v s).2 = s) ∨
    ((set fd n v s).1 = .ok ∧ (set fd n v s).2 = { s with value := fun x m => if x = fd ∧ m = n then v else s.value x m })

/-- The same for `SO_LINGER`. -/
def HonestLinger (set : Int → Linger → S → Int × S) : Prop :=
  ∀ fd v s, ((set fd v s).1 < 0 ∧ (set fd v s).2 = s) ∨
    (0 ≤ (set fd v s).1 ∧ (set fd v s).2 = { s with linger := fun x => if x = fd then v else s.linger x })

/-- The smallest number of seconds that is not less than a time in nanoseconds. -/
def Seconds (ns : Nat) (sec : Nat) : Prop := ns ≤ sec * 1000000000 ∧ ∀ t, ns ≤ t * 1000000000 → sec ≤ t

end Diminuto.Options
