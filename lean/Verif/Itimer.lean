import Verif.Delay

/-!
# Model of the singleton timer

`diminuto_timer_setitimer`, `Diminuto/src/diminuto_timer.c:329-357`, with `diminuto_timer_start` and `diminuto_timer_stop` for the timer that it makes, which sends `SIGALRM` and calls no
function.  Time passes by one nanosecond, which is a tick, at a time; a POSIX timer that is due then sends the signal, and is armed again if it has an interval.

Simplifications: calls are serialized by the mutex of the function, and one takes no time.  Whether `diminuto_timer_init_generic` succeeds is arbitrary for each call of it.  The signal is noted
when it is sent; that signals that are pending are merged is left out.  The clock does not overflow.
-/

namespace Diminuto.Itimer
open Time (ticks2wholeseconds ticks2fractionalseconds seconds2ticks)
open Delay (Timespec)

/-- Both times of a POSIX timer that is armed. -/
structure Armed where
  /-- The time at which it expires next. -/
  due : Nat
  /-- How long after that it expires again; zero if it does not. -/
  interval : Nat
deriving DecidableEq, Repr

/-- The POSIX timer and the static variables of `diminuto_timer_setitimer`, `Diminuto/src/diminuto_timer.c:332-333`. -/
structure State where
  now : Nat
  timer : Option Armed
  initialized : Bool
  /-- `singleton.periodic`. -/
  periodic : Bool
  /-- `singleton.current.it_interval`. -/
  interval : Timespec
deriving DecidableEq, Repr

/-- When the process starts static variables are zero. -/
def start0 : State := ⟨0, none, false, false, ⟨0, 0⟩⟩

/-- A time that the kernel accepts. -/
def acceptable (t : Timespec) : Bool := decide (0 ≤ t.sec) && decide (0 ≤ t.nsec) && decide (t.nsec < 1000000000)

/-- What is left of the time until the timer expires, which `timer_settime(2)` stores. -/
def remaining (s : State) : Timespec :=
  match s.timer with
  | none => ⟨0, 0⟩
  | some a => ⟨((a.due - s.now) / 1000000000 : Nat), ((a.due - s.now) % 1000000000 : Nat)⟩

/-- `timer_settime(2)` with a time relative to now; `none` if it fails with `EINVAL`.  `strict` is whether the interval is looked at even if the timer is to be disarmed, as Linux does and POSIX
does not ask for. -/
def settime (strict : Bool) (s : State) (value interval : Timespec) : Option (Timespec × State) :=
  if acceptable value = false then none
  else if acceptable interval = false ∧ (strict = true ∨ value ≠ ⟨0, 0⟩) then none
  else
    some (remaining s, { s with
      timer := if value = ⟨0, 0⟩ then none
               else some ⟨s.now + (value.sec * 1000000000 + value.nsec).toNat, (interval.sec * 1000000000 + interval.nsec).toNat⟩ })

/-- What is seen. -/
inductive Output where
  /-- Time passes, and the signal is sent or it is not. -/
  | passed (alarm : Bool)
  /-- A call returns. -/
  | returned (sticks : Int)
  /-- A computation overflows. -/
  | undefined
deriving DecidableEq, Repr

/-- The end of both functions, `Diminuto/src/diminuto_timer.c:272-280` and `:312-320` with `rc` zero: the timer is set; what is returned is what was left. -/
def finish (strict : Bool) (s : State) (value : Timespec) : Output × State :=
  match settime strict s value s.interval with
  | none => (.returned (-1), s)
  | some (r, s) =>
    match seconds2ticks r.sec r.nsec 1000000000 with
    | some t => (.returned t, s)
    | none => (.undefined, s)

/-- `diminuto_timer_start`, `Diminuto/src/diminuto_timer.c:251-281`; the state, the error and the context, which are not used for this timer, are left out. -/
def start (strict : Bool) (s : State) (ticks : BitVec 64) : Output × State :=
  match ticks2wholeseconds ticks.toInt, ticks2fractionalseconds ticks.toInt 1000000000 with
  | some sec, some nsec => finish strict { s with interval := if s.periodic then ⟨sec, nsec⟩ else ⟨0, 0⟩ } ⟨sec, nsec⟩
  | _, _ => (.undefined, s)

/-- `diminuto_timer_stop`, `Diminuto/src/diminuto_timer.c:283-321`, for a timer without a function. -/
def stop (strict : Bool) (s : State) : Output × State := finish strict s ⟨0, 0⟩

/-- `diminuto_timer_setitimer`, `Diminuto/src/diminuto_timer.c:329-357`; `ready` is whether `diminuto_timer_init_generic` succeeds if it is called, which clears the object, `:137-139`. -/
def setitimer (strict : Bool) (s : State) (ticks : BitVec 64) (periodic ready : Bool) : Output × State :=
  if s.initialized then
    if ticks = 0#64 then stop strict s else start strict s ticks
  else if ready then
    let s := { s with initialized := true, periodic := periodic, interval := ⟨0, 0⟩ }
    if ticks = 0#64 then stop strict s else start strict s ticks
  else (.returned (-1), s)

/-- What happens. -/
inductive Event where
  | pass
  | call (ticks : BitVec 64) (periodic ready : Bool)
deriving DecidableEq, Repr

/-- A nanosecond passes. -/
def pass (s : State) : Output × State :=
  let s := { s with now := s.now + 1 }
  match s.timer with
  | none => (.passed false, s)
  | some a =>
    if a.due ≤ s.now then
      (.passed true, { s with timer := if a.interval = 0 then none else some ⟨a.due + a.interval, a.interval⟩ })
    else (.passed false, s)

def step (strict : Bool) (s : State) : Event → Output × State
  | .pass => pass s
  | .call t p r => setitimer strict s t p r

/-- An execution; the latest event and what is seen of it come first. -/
def run (strict : Bool) : List Event → List Output × State
  | [] => ([], start0)
  | e :: h => let r := run strict h; let x := step strict r.2 e; (x.1 :: r.1, x.2)

end Diminuto.Itimer
