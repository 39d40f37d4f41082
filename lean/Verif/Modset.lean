import Verif.Modulator

/-!
# Model of changing the duty cycle of a modulator that runs

Of `Diminuto/src/diminuto_modulator.c` the function `diminuto_modulator_set` with its wait for the callback, the callback, and starting and stopping, as a transition system of any number of threads.  A step is one critical section, or one firing of the timer.

Simplifications: firings do not overlap; the mutex and the condition do not fail; the state of the timer is whether it is armed, and a stop, by the application or because the function of the application asks for it, is one step.  Waiting for the
condition may end without a signal, as POSIX has it.
-/

namespace Diminuto.Modset

open Diminuto.Modulator (counts)

/-- What has happened: a thread has asked for a duty cycle, and waits for it or does not; the callback has taken over the counts; the function has returned zero to a thread that has waited. -/
inductive Deed
  | asked (t duty : Nat) (waits : Bool)
  | took (on off : Nat)
  | returned (t : Nat)
  deriving DecidableEq

/-- The modulator, whether its timer is armed, the threads that wait for the condition and those that have been woken and have not gone on yet, and what has happened. -/
structure State where
  m : Modulator.State
  armed : Bool
  blocked : List Nat
  woken : List Nat
  log : List Deed
  deriving DecidableEq

inductive Event
  /-- `diminuto_modulator_start`, `Diminuto/src/diminuto_modulator.c:308-318`. -/
  | start
  /-- `diminuto_modulator_stop`, `Diminuto/src/diminuto_modulator.c:320-327`, or at `:216`, `:219`, `:232`, `:235`. -/
  | stop
  /-- `diminuto_modulator_set`, `Diminuto/src/diminuto_modulator.c:138-147`, to its end or up to the wait. -/
  | set (t duty : Nat)
  /-- The timer fires; the thread that is signalled is the one in this place of those that wait. -/
  | fire (w : Nat)
  /-- A thread wakes up without having been signalled. -/
  | spurious (t : Nat)
  /-- A thread that has been woken looks again, `Diminuto/src/diminuto_modulator.c:148-153`. -/
  | retry (t : Nat)
  deriving DecidableEq

/-- `diminuto_condition_signal` at `Diminuto/src/diminuto_modulator.c:196`: one of the threads that wait is woken, if there is one. -/
def signal (w : Nat) (s : State) : State :=
  match s.blocked[w % s.blocked.length]? with
  | none => s
  | some t => { s with blocked := s.blocked.erase t, woken := t :: s.woken }

/-- A step; `none` if it cannot happen now. -/
def step (s : State) : Event → Option State
  | .start => some { s with armed := true }
  | .stop => some { s with armed := false }
  -- `Diminuto/src/diminuto_modulator.c:138-158`
  | .set t duty =>
    if t ∈ s.blocked ∨ t ∈ s.woken then none
    else
      let s := { s with m := Modulator.set s.m duty, log := s.log ++ [Deed.asked t duty s.armed] }
      some (if s.armed then { s with blocked := t :: s.blocked } else s)
  -- `Diminuto/src/diminuto_modulator.c:176-202`
  | .fire w =>
    if s.armed then
      let s' := { s with m := Modulator.callback s.m }
      some (if s.m.cycle = 0 ∧ s.m.set = true then signal w { s' with log := s.log ++ [Deed.took s.m.ton s.m.toff] } else s')
    else none
  | .spurious t => if t ∈ s.blocked then some { s with blocked := s.blocked.erase t, woken := t :: s.woken } else none
  -- `Diminuto/src/diminuto_modulator.c:148-153`
  | .retry t =>
    if t ∈ s.woken then
      if s.m.set then some { s with woken := s.woken.erase t, blocked := t :: s.blocked }
      else some { s with woken := s.woken.erase t, log := s.log ++ [.returned t] }
    else none

/-- An execution. -/
def run (s : State) : List Event → Option State
  | [] => some s
  | e :: es => (step s e).bind fun s => run s es

/-- After `diminuto_modulator_init`, `Diminuto/src/diminuto_modulator.c:259-306`. -/
def init (duty : Nat) : State := ⟨Modulator.init duty, false, [], [], []⟩

end Diminuto.Modset
