import Verif.Fletcher

/-!
# Model of the Timer feature

Models `proxy`, `diminuto_timer_start` and `diminuto_timer_stop` of `Diminuto/src/diminuto_timer.c` for one timer that
calls a function, as a transition system.  The POSIX timer makes a new thread, which executes `proxy`, at each expiration;
any number of these, and any number of threads of the application that call the functions, interleave.  A step is one critical section
(or what is outside of them).

Simplifications: the function is not null and stays the same; the context and the value are left out.  Locking,
signalling and setting the POSIX timer do not fail.  The assignments in start, which are not in a critical section, are one step.
Waiting for the condition ends with the state idle, or by timing out; wake-ups by which the loop goes on are no steps.
-/

namespace Diminuto.Timer

/-- `diminuto_timer_state_t`, `Diminuto/inc/com/diag/diminuto/diminuto_timer.h:69-74`. -/
inductive Phase
  | idle
  | arm
  | disarm
  deriving DecidableEq

/-- Where a thread made by an expiration is in `proxy`, `Diminuto/src/diminuto_timer.c:37-89`. -/
inductive Proxy
  /-- There is no such thread yet. -/
  | none
  /-- Before the first critical section, `:47`. -/
  | created
  /-- In the function of the application, `:63`. -/
  | running
  /-- Before the second critical section, `:66`. -/
  | leaving
  | done
  deriving DecidableEq

/-- Where a thread of the application is in `diminuto_timer_stop`, `Diminuto/src/diminuto_timer.c:283-321`. -/
inductive App
  | idle
  /-- Waiting for the condition, `:296-302`. -/
  | waiting
  /-- Before `timer_settime`, `:312`, with `rc == 0` or not. -/
  | settime (ok : Bool)
  deriving DecidableEq

structure State where
  /-- `tp->periodic`. -/
  periodic : Bool
  /-- `tp->state`. -/
  phase : Phase
  /-- The POSIX timer is armed. -/
  armed : Bool
  proxy : Nat → Proxy
  app : Nat → App

inductive Event
  /-- `diminuto_timer_start`, by a thread of the application. -/
  | start (t : Nat)
  /-- The POSIX timer expires, and makes a new thread. -/
  | expire (p : Nat)
  /-- The first critical section of `proxy`. -/
  | enter (p : Nat)
  /-- The function of the application returns. -/
  | ret (p : Nat)
  /-- The second critical section of `proxy`. -/
  | leave (p : Nat)
  /-- `diminuto_timer_stop`, up to the wait. -/
  | stop (t : Nat)
  /-- The wait ends since the state is idle. -/
  | wake (t : Nat)
  /-- The wait times out. -/
  | timeout (t : Nat)
  /-- `diminuto_timer_stop` disarms the POSIX timer and returns. -/
  | settime (t : Nat)
  deriving DecidableEq

/-- Assignment to one element. -/
def upd {β : Type} (f : Nat → β) (i : Nat) (x : β) : Nat → β := fun j => if j = i then x else f j

/-- A step; `none` if it cannot happen now. -/
def step (s : State) : Event → Option State
  -- `Diminuto/src/diminuto_timer.c:253-281`
  | .start t => if s.app t = .idle then some { s with phase := .arm, armed := true } else none
  | .expire p =>
    if s.armed = true ∧ s.proxy p = .none then
      some { s with armed := s.periodic, proxy := upd s.proxy p .created }
    else none
  -- `Diminuto/src/diminuto_timer.c:47-64`
  | .enter p =>
    if s.proxy p = .created then
      some { s with proxy := upd s.proxy p (if s.phase = .arm then .running else .leaving) }
    else none
  | .ret p => if s.proxy p = .running then some { s with proxy := upd s.proxy p .leaving } else none
  -- `Diminuto/src/diminuto_timer.c:66-86`
  | .leave p =>
    if s.proxy p = .leaving then
      some { s with
        proxy := upd s.proxy p .done
        phase := if s.periodic then (if s.phase = .disarm then .idle else s.phase)
                 else (if s.phase ≠ .idle then .idle else s.phase) }
    else none
  -- `Diminuto/src/diminuto_timer.c:289-307`
  | .stop t =>
    if s.app t = .idle then
      if s.phase = .arm then some { s with phase := .disarm, app := upd s.app t .waiting }
      else some { s with app := upd s.app t (.settime true) }
    else none
  | .wake t =>
    if s.app t = .waiting ∧ s.phase = .idle then some { s with app := upd s.app t (.settime true) } else none
  | .timeout t => if s.app t = .waiting then some { s with app := upd s.app t (.settime false) } else none
  -- `Diminuto/src/diminuto_timer.c:309-320`
  | .settime t =>
    match s.app t with
    | .settime _ => some { s with armed := false, app := upd s.app t .idle }
    | _ => none

/-- An execution. -/
def run (s : State) : List Event → Option State
  | [] => some s
  | e :: es => (step s e).bind fun s => run s es

/-- After `diminuto_timer_init_base`, `Diminuto/src/diminuto_timer.c:137-145`. -/
def init (periodic : Bool) : State := ⟨periodic, .idle, false, fun _ => .none, fun _ => .idle⟩

end Diminuto.Timer
