import Verif.Daemon

/-!
# What becoming a daemon means
-/

namespace Diminuto.Daemon

/-- The parent is done. -/
def Done : Parent → Prop
  | .start => False
  | .waiting => False
  | .returned _ => True
  | .exited _ => True

/-- The parent is told, or tells its own parent, that all is well, as the header documents it. -/
def Succeeds (k : Kind) (p : Parent) : Prop :=
  match k with
  | .daemon => p = .exited 0
  | .service => ∃ v, 0 < v ∧ p = .returned v
  | .system => p = .returned 0

/-- It is told that something is wrong. -/
def Fails (k : Kind) (p : Parent) : Prop :=
  match k with
  | .daemon => p = .exited 1
  | .service => ∃ v, v < 0 ∧ p = .returned v
  | .system => ∃ v, v < 0 ∧ p = .returned v

/-- The grandchild has no parent but process 1. -/
def Orphaned (s : State) : Prop := s.grandchild ≠ .none ∧ s.child ≠ .start ∧ s.child ≠ .forked

/-- The states that the three come to if the child is not killed. -/
inductive Unkilled (c : Setting) : State → Prop where
  | initial : Unkilled c initial
  | step {s t : State} : Unkilled c s → Step c s t → (∀ status, t.child = .zombie status → status ≠ .signaled) → Unkilled c t

/-- How much there is to do for the parent. -/
def Parent.work : Parent → Nat
  | .start => 20
  | .waiting => 1
  | _ => 0

/-- How much there is for the child. -/
def Child.work : Child → Nat
  | .start => 10
  | .forked => 5
  | .zombie _ => 2
  | _ => 0

/-- How much there is for the grandchild. -/
def Grandchild.work : Grandchild → Nat
  | .start => 1
  | _ => 0

/-- How much there is to do. -/
def State.work (s : State) : Nat := s.parent.work + s.child.work + s.grandchild.work

end Diminuto.Daemon
