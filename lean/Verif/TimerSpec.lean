import Verif.Timer

/-!
# Specification: the Timer
-/

namespace Diminuto.Timer

/-- The function of the application is being executed. -/
def Calling (s : State) : Prop := ∃ p, s.proxy p = .running

/-- Stop is about to return success, or not. -/
def Succeeds (s : State) (t : Nat) : Prop := s.app t = .settime true

/-- What the executions have to keep to: each call of the function ends before the next begins, start is not called during stop,
and stop is not called while another stop waits, nor again after it has timed out (before start). -/
def Apart (s : State) : Event → Prop
  | .enter p => ∀ q, q ≠ p → s.proxy q ≠ .running ∧ s.proxy q ≠ .leaving
  | .start _ => ∀ t, s.app t = .idle
  | .stop _ => s.phase ≠ .disarm
  | _ => True

/-- Such executions. -/
inductive Run (periodic : Bool) : List Event → State → Prop
  | nil : Run periodic [] (init periodic)
  | snoc {s s' : State} {es : List Event} {e : Event} (h : Run periodic es s) (ha : Apart s e) (hs : step s e = some s') :
      Run periodic (es ++ [e]) s'

end Diminuto.Timer
