import Verif.Signals

/-!
# Specification: signal counters
-/

namespace Diminuto.Signals

/-- The specification: a counter that saturates, on which each act happens at one instant.  `none` if a check did not return what the counter was. -/
def count : List Act → Option Nat
  | [] => some 0
  | .signal :: as => (count as).bind fun n => some (min (n + 1) (2 ^ 31 - 1))
  | .check my :: as => (count as).bind fun n => if my.toInt = n then some 0 else none
  | .reset :: as => (count as).bind fun _ => some 0

/-- What the checks of a history reported. -/
def reports : List Act → List Int32
  | [] => []
  | .check my :: as => my :: reports as
  | _ :: as => reports as

/-- How many signals there were in a history. -/
def signals : List Act → Nat
  | [] => 0
  | .signal :: as => signals as + 1
  | _ :: as => signals as

/-- The sum of numbers. -/
def total : List Int32 → Int
  | [] => 0
  | x :: xs => x.toInt + total xs

/-- The thread is between reading the counter and writing it, or about to read it. -/
def inCheck (s : State) (t : Nat) : Prop := s.pc t = .blocked ∨ ∃ my, s.pc t = .got my

/-- While one thread is in the handler or between masking the signal and clearing the counter, no other thread gets in. -/
def Apart (s : State) : Event → Prop
  | .deliver t => ∀ u, u ≠ t → s.handler u = .none ∧ ¬ inCheck s u
  | .check t => s.pc t = .locked → ∀ u, u ≠ t → s.handler u = .none
  | .install _ => ∀ u, s.handler u = .none ∧ ¬ inCheck s u
  | .handle _ => True

/-- Executions of that kind. -/
inductive Run : List Event → State → Prop
  | nil : Run [] start
  | snoc {s s' : State} {es : List Event} {e : Event} (h : Run es s) (ha : Apart s e) (hs : step s e = some s') :
      Run (es ++ [e]) s'

/-- The thread of an event. -/
def Event.thread : Event → Nat
  | .deliver t => t
  | .handle t => t
  | .check t => t
  | .install t => t

end Diminuto.Signals
