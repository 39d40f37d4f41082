import Verif.Condition

/-!
# What the Condition and the Mutex features are meant to do
-/

namespace Diminuto.Condition

/-- How often a thread has locked the mutex, according to the results of its calls, and not unlocked it. -/
def held : List (Call × Code) → Int
  | [] => 0
  | (.lock, .ok) :: l => held l + 1
  | (.attempt, .ok) :: l => held l + 1
  | (.unlock, .ok) :: l => held l - 1
  | _ :: l => held l

/-- The process before any calls. -/
def initial (now : Int) : Sys := ⟨fun _ => ⟨.active, []⟩, none, 0, now⟩

/-- The states that the process comes to. -/
inductive Reaches (now : Int) : Sys → Prop where
  | initial : Reaches now (initial now)
  | step {x y : Sys} {e : Label} : Reaches now x → Step x e y → Reaches now y

/-- A thread that has called the function that waits, which has not returned. -/
def InWait (x : Sys) (t : Nat) : Prop := (x.threads t).status ≠ .active

/-- A thread that has the mutex: it has locked it more often than it has unlocked it, and a wait is to unlock it. -/
def Has (x : Sys) (t : Nat) : Prop := 0 < held (x.threads t).log ∧ ¬ InWait x t

/-- Steps in which some thread does not return from its wait. -/
inductive While (t : Nat) (x : Sys) : Sys → Prop where
  | here : While t x x
  | step {y z : Sys} {e : Label} : While t x y → Step y e z → InWait z t → While t x z

/-- Threads at the beginning, that wait for the variable or set it. -/
def ready (now : Int) (sets : Nat → Bool) : Handoff := ⟨initial now, fun t => if sets t then .prepare else .begin, false⟩

/-- The states that these come to. -/
inductive Handoff.Reaches (now : Int) (sets : Nat → Bool) : Handoff → Prop where
  | initial : Handoff.Reaches now sets (ready now sets)
  | step {x y : Handoff} : Handoff.Reaches now sets x → Handoff.Step x y → Handoff.Reaches now sets y

end Diminuto.Condition
