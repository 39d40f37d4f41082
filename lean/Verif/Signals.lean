import Verif.Fletcher

/-!
# Model of the signal counters

Models the handler, check and install functions of `Diminuto/src/diminuto_alarm.c`, `diminuto_hangup.c`,
`diminuto_interrupter.c`, `diminuto_pipe.c`, `diminuto_reaper.c` and `diminuto_terminator.c`, which are the same but for the number
of the signal (and for install), as a transition system of any number of threads.  A step is one access to the shared
variable, or one call of a function that locks or masks.  A signal can be delivered to any thread that does not mask it, at any point;
the thread goes on when the handler is done.

Simplifications: the accesses to the variable, a `volatile int`, are taken to be atomic and sequentially consistent.  The
handler is only called for its signal.  Locking and masking do not fail.
-/

namespace Diminuto.Signals

/-- `int`. -/
abbrev Int32 := BitVec 32

/-- `MAXIMUM`, `Diminuto/src/diminuto_alarm.c:48`. -/
def MAXIMUM : Int32 := ~~~ (1#32 <<< 31)

/-- Where a thread is in the check function, `Diminuto/src/diminuto_alarm.c:60-81`. -/
inductive Pc
  | idle
  /-- `DIMINUTO_CRITICAL_SECTION_BEGIN` done, `:64`. -/
  | locked
  /-- `DIMINUTO_UNINTERRUPTIBLE_SECTION_BEGIN` done, `:65`. -/
  | blocked
  /-- `mysignaled = signaled` done, `:67`. -/
  | got (my : Int32)
  /-- `signaled = 0` done, `:68`. -/
  | cleared (my : Int32)
  /-- `DIMINUTO_UNINTERRUPTIBLE_SECTION_END` done, `:70`. -/
  | unblocked (my : Int32)
  deriving DecidableEq

/-- Where the handler is that interrupts a thread, `Diminuto/src/diminuto_alarm.c:45-58`. -/
inductive Handler
  | none
  | entered
  /-- `mysignaled = signaled` done, `:51`. -/
  | got (my : Int32)
  deriving DecidableEq

/-- What happened to the counter at one instant. -/
inductive Act
  | signal
  | check (my : Int32)
  | reset
  deriving DecidableEq

/-- The variables, the threads, the values that checks have returned, and the history, the last first. -/
structure State where
  signaled : Int32
  mutex : Option Nat
  masked : Nat → Bool
  pc : Nat → Pc
  handler : Nat → Handler
  returned : List Int32
  log : List Act

inductive Event
  /-- A signal is delivered to a thread. -/
  | deliver (t : Nat)
  /-- A step of the handler in a thread. -/
  | handle (t : Nat)
  /-- A step of the check function in a thread. -/
  | check (t : Nat)
  /-- The assignment in the install function of the interrupter and the terminator,
  `Diminuto/src/diminuto_interrupter.c:102`, `Diminuto/src/diminuto_terminator.c:102`. -/
  | install (t : Nat)
  deriving DecidableEq

/-- Assignment to one element. -/
def upd {β : Type} (f : Nat → β) (i : Nat) (x : β) : Nat → β := fun j => if j = i then x else f j

/-- A step of the check function, `Diminuto/src/diminuto_alarm.c:60-81`. -/
def stepCheck (s : State) (t : Nat) : Option State :=
  match s.pc t with
  | .idle => if s.mutex = none then some { s with mutex := some t, pc := upd s.pc t .locked } else none
  | .locked => some { s with masked := upd s.masked t true, pc := upd s.pc t .blocked }
  | .blocked => some { s with pc := upd s.pc t (.got s.signaled) }
  | .got my => some { s with signaled := 0#32, pc := upd s.pc t (.cleared my), log := .check my :: s.log }
  | .cleared my => some { s with masked := upd s.masked t false, pc := upd s.pc t (.unblocked my) }
  | .unblocked my => some { s with mutex := none, pc := upd s.pc t .idle, returned := my :: s.returned }

/-- A step of the handler, `Diminuto/src/diminuto_alarm.c:45-58`. -/
def stepHandler (s : State) (t : Nat) : Option State :=
  match s.handler t with
  | .none => none
  | .entered => some { s with handler := upd s.handler t (.got s.signaled) }
  | .got my =>
    if my.slt MAXIMUM then
      some { s with signaled := my + 1#32, handler := upd s.handler t .none, log := .signal :: s.log }
    else some { s with handler := upd s.handler t .none, log := .signal :: s.log }

/-- A step; `none` if it cannot happen now. -/
def step (s : State) : Event → Option State
  | .deliver t =>
    if s.handler t = .none ∧ s.masked t = false then some { s with handler := upd s.handler t .entered } else none
  | .handle t => stepHandler s t
  | .check t => if s.handler t = .none then stepCheck s t else none
  | .install t =>
    if s.handler t = .none ∧ s.pc t = .idle then some { s with signaled := 0#32, log := .reset :: s.log } else none

/-- An execution. -/
def run (s : State) : List Event → Option State
  | [] => some s
  | e :: es => (step s e).bind fun s => run s es

/-- Nothing has happened, `Diminuto/src/diminuto_alarm.c:27-28`. -/
def start : State := ⟨0#32, none, fun _ => false, fun _ => .idle, fun _ => .none, [], []⟩

end Diminuto.Signals
