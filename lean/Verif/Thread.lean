/-!
# Model of the thread object

`Diminuto/src/diminuto_thread.c`: one thread object, on which any number of callers call `diminuto_thread_start`, `diminuto_thread_notify` and
`diminuto_thread_join_until`, together with the POSIX threads that it creates.  What is done while the mutex is held is one step; a wait on the condition gives the
mutex back and is between steps; what is done without the mutex is a step for each access to the object.  Locking and broadcasting do not fail.
Signals, priorities, `diminuto_thread_fini` and a thread that joins itself are not modelled.
-/

namespace Diminuto.Thread

/-- `diminuto_thread_state_t`, `Diminuto/inc/com/diag/diminuto/diminuto_thread.h:83-93`. -/
inductive State where
  | initialized | started | running | exiting | joined | failed
deriving DecidableEq

/-- `(void *)(~0)`, `Diminuto/src/diminuto_thread.c:408`, which is also `PTHREAD_CANCELED`. -/
def NOVALUE : Nat := 2 ^ 64 - 1

/-- Where a POSIX thread is in `proxy`, `Diminuto/src/diminuto_thread.c:76-114`. -/
inductive Thr where
  /-- It has not been created. -/
  | none
  /-- It has been created, `:410`, but it has not got the mutex, `:96`. -/
  | created
  /-- It has set the state, `:100`. -/
  | begun
  /-- It is in the function, `:109`. -/
  | inside
  /-- The function is over.  `v` is the final value if it is given to the system by `pthread_exit(3)`, `:372`, or by cancellation, and not read from the
  object, `:113`.  `n` is how many times `proxy_cleanup`, `:50-63`, is still to be called. -/
  | leaving (v : Option Nat) (n : Nat)
  /-- It has ended with this value. -/
  | ended (v : Nat)
  /-- Its value has been returned by `pthread_join(3)`. -/
  | reaped
deriving DecidableEq

/-- A return value, `Diminuto/inc/com/diag/diminuto/diminuto_thread.h:58-61`. -/
inductive Rc where
  | zero | error | timedout
deriving DecidableEq

/-- Where a caller is in `diminuto_thread_join_until`, `Diminuto/src/diminuto_thread.c:477-591`. -/
inductive Pc where
  /-- It is not in the function. -/
  | idle
  /-- It waits on the condition, `:502` or `:513`. -/
  | waiting (forever : Bool)
  /-- It has been woken and is to get the mutex. -/
  | woken (forever : Bool)
  /-- The wait has timed out, and it is to get the mutex. -/
  | late
  /-- It is to read the state for the second time, `:544`. -/
  | look (rc : Rc)
  /-- It is to call `pthread_join(3)`, `:549`. -/
  | call
  /-- It is in `pthread_join(3)` of this thread. -/
  | joining (g : Nat)
  /-- It has got the value and is to get the mutex, `:552`. -/
  | store (v : Nat)
  /-- It is to read the state for the third time, `:572`. -/
  | last (rc : Rc)
  /-- It is to read the value, `:578`. -/
  | take
deriving DecidableEq

/-- `diminuto_thread_t`, `Diminuto/inc/com/diag/diminuto/diminuto_thread.h:98-110`, its POSIX threads, and its callers.  POSIX threads are numbered in the order
in which they are created. -/
structure S where
  state : State
  context : Nat
  value : Nat
  /-- `thread`, the POSIX thread. -/
  cur : Nat
  notifications : Nat
  /-- How many POSIX threads have been created. -/
  made : Nat
  thr : Nat → Thr
  /-- The threads for which a caller is in `pthread_join(3)`. -/
  busy : Nat → Bool
  pc : Nat → Pc

/-- `diminuto_thread_init_base`, `Diminuto/src/diminuto_thread.c:192-253`, or `DIMINUTO_THREAD_INITIALIZER`. -/
def init : S := ⟨.initialized, 0, NOVALUE, 0, 0, 0, fun _ => .none, fun _ => false, fun _ => .idle⟩

/-- A step, with what the environment decides. -/
inductive Label where
  /-- `diminuto_thread_start`, where `sigaction(2)` and `pthread_create(3)` succeed or not. -/
  | start (sig create : Bool) (context : Nat)
  /-- `diminuto_thread_notify`. -/
  | notify
  /-- A caller calls `diminuto_thread_join_until`. -/
  | enter (c : Nat) (forever : Bool)
  /-- A spurious wakeup. -/
  | spurious (c : Nat)
  | timeout (c : Nat)
  /-- The caller goes on. -/
  | caller (c : Nat)
  /-- The new POSIX thread gets the mutex, unless its setup fails. -/
  | begin (g : Nat) (ok : Bool)
  /-- The thread calls the function. -/
  | function (g : Nat)
  /-- The function returns. -/
  | return (g : Nat) (v : Nat)
  /-- The function calls `diminuto_thread_exit`. -/
  | exit (g : Nat) (v : Nat)
  /-- The thread is cancelled. -/
  | cancel (g : Nat)
  /-- The thread goes on after the function. -/
  | thread (g : Nat)
  /-- The function calls `diminuto_thread_notifications`. -/
  | notifications (g : Nat)
deriving DecidableEq

/-- What can be seen of a step. -/
inductive Obs where
  | nothing
  | started (context : Nat)
  | notStarted
  /-- `diminuto_thread_start` has done nothing. -/
  | refused
  | notified
  | entered (c : Nat) (forever : Bool)
  /-- `diminuto_thread_join_until` has returned, perhaps with a value. -/
  | returned (c : Nat) (rc : Rc) (v : Option Nat)
  /-- The thread could not be set up and will not call the function. -/
  | broken
  | called (context : Nat)
  | finished (v : Nat)
  /-- `pthread_join(3)` has returned. -/
  | reaped (v : Nat)
  | counted (n : Nat)
deriving DecidableEq

/-- The outcome of a step. -/
inductive Out where
  | ok (s : S) (o : Obs)
  /-- Undefined behaviour. -/
  | ub

/-- `diminuto_condition_signal`, `Diminuto/src/diminuto_condition.c:86-104`, which is a broadcast. -/
def broadcast (pc : Nat → Pc) : Nat → Pc := fun c => match pc c with
  | .waiting f => .woken f
  | p => p

/-- A change of one element. -/
def set {α : Type} (f : Nat → α) (i : Nat) (a : α) : Nat → α := fun j => if j = i then a else f j

/-- `diminuto_thread_start`, `Diminuto/src/diminuto_thread.c:380-429`. -/
def start (s : S) (sig create : Bool) (context : Nat) : Out :=
  if s.state = .initialized ∨ s.state = .joined ∨ s.state = .failed then
    if sig = false then .ok s .refused
    else if create then
      .ok { s with
        state := .started, context := context, value := NOVALUE, notifications := 0, cur := s.made, made := s.made + 1, thr := set s.thr s.made .created,
        pc := broadcast s.pc } (.started context)
    else .ok { s with state := .failed, context := context, value := NOVALUE, notifications := 0, pc := broadcast s.pc } .notStarted
  else .ok s .refused

/-- `diminuto_thread_notify`, `Diminuto/src/diminuto_thread.c:431-475`.  `notifications` is an `int32_t`, and so it can only be compared equal to the greatest
`unsigned int` after it has overflowed.  A thread that has been joined must not be sent a signal. -/
def notify (s : S) : Out :=
  if s.state = .started ∨ s.state = .running then
    if s.notifications ≥ 2 ^ 31 - 1 then .ub
    else
      match s.thr s.cur with
      | .none => .ub
      | .reaped => .ub
      | _ => .ok { s with notifications := s.notifications + 1, pc := broadcast s.pc } .notified
  else .ok s .nothing

/-- The first part of `diminuto_thread_join_until`, `Diminuto/src/diminuto_thread.c:487-500`. -/
def enter (s : S) (c : Nat) (forever : Bool) : Out :=
  if s.state = .started ∨ s.state = .running then .ok { s with pc := set s.pc c (.waiting forever) } (.entered c forever)
  else .ok { s with pc := set s.pc c (.look .error) } (.entered c forever)

/-- The rest of `diminuto_thread_join_until`, `Diminuto/src/diminuto_thread.c:500-591`. -/
def caller (s : S) (c : Nat) : Option Out :=
  match s.pc c with
  | .woken f =>
    if s.state = .exiting then some (.ok { s with pc := set s.pc c (.look .zero) } .nothing)
    else some (.ok { s with pc := set s.pc c (.waiting f) } .nothing)
  | .late => some (.ok { s with pc := set s.pc c (.look .timedout) } .nothing)
  | .look rc =>
    if s.state = .exiting then some (.ok { s with pc := set s.pc c .call } .nothing)
    else some (.ok { s with pc := set s.pc c (.last rc) } .nothing)
  | .call =>
    if s.thr s.cur = .reaped ∨ s.thr s.cur = .none ∨ s.busy s.cur = true then some .ub
    else some (.ok { s with pc := set s.pc c (.joining s.cur), busy := set s.busy s.cur true } .nothing)
  | .joining g =>
    match s.thr g with
    | .ended v => some (.ok { s with pc := set s.pc c (.store v), busy := set s.busy g false, thr := set s.thr g .reaped } (.reaped v))
    | _ => none
  | .store v => some (.ok { s with value := v, state := .joined, pc := set (broadcast s.pc) c (.last .zero) } .nothing)
  | .last rc =>
    if s.state = .joined then some (.ok { s with pc := set s.pc c .take } .nothing)
    else some (.ok { s with pc := set s.pc c .idle } (.returned c rc none))
  | .take => some (.ok { s with pc := set s.pc c .idle } (.returned c .zero (some s.value)))
  | _ => none

/-- `proxy_cleanup`, `Diminuto/src/diminuto_thread.c:50-63`, and the end of `proxy`, `:111-114`. -/
def thread (s : S) (g : Nat) : Option Out :=
  match s.thr g with
  | .leaving v (n + 1) => some (.ok { s with state := .exiting, pc := broadcast s.pc, thr := set s.thr g (.leaving v n) } .nothing)
  | .leaving v 0 => some (.ok { s with thr := set s.thr g (.ended (v.getD s.value)) } .nothing)
  | _ => none

/-- A step; `none` if it is not possible. -/
def step (s : S) : Label → Option Out
  | .start sig create context => some (start s sig create context)
  | .notify => some (notify s)
  | .enter c forever => if s.pc c = .idle then some (enter s c forever) else none
  | .spurious c =>
    match s.pc c with
    | .waiting f => some (.ok { s with pc := set s.pc c (.woken f) } .nothing)
    | _ => none
  | .timeout c => if s.pc c = .waiting false then some (.ok { s with pc := set s.pc c .late } .nothing) else none
  | .caller c => caller s c
  | .begin g ok =>
    if s.thr g = .created then
      if ok then some (.ok { s with state := .running, pc := broadcast s.pc, thr := set s.thr g .begun } .nothing)
      else some (.ok { s with thr := set s.thr g (.ended s.value) } .broken)
    else none
  | .function g => if s.thr g = .begun then some (.ok { s with thr := set s.thr g .inside } (.called s.context)) else none
  | .return g v => if s.thr g = .inside then some (.ok { s with value := v, thr := set s.thr g (.leaving none 1) } (.finished v)) else none
  | .exit g v => if s.thr g = .inside then some (.ok { s with value := v, thr := set s.thr g (.leaving (some v) 2) } (.finished v)) else none
  | .cancel g => if s.thr g = .inside then some (.ok { s with thr := set s.thr g (.leaving (some NOVALUE) 1) } (.finished NOVALUE)) else none
  | .thread g => thread s g
  | .notifications g =>
    if s.thr g = .inside then some (.ok { s with notifications := 0, pc := broadcast s.pc } (.counted s.notifications)) else none

/-- The outcome of a sequence of steps, and what has been seen. -/
inductive Run where
  | ok (s : S) (h : List Obs)
  | ub (h : List Obs)

/-- A sequence of steps; `none` if one of them is not possible. -/
def run (s : S) (h : List Obs) : List Label → Option Run
  | [] => some (.ok s h)
  | l :: ls =>
    match step s l with
    | none => none
    | some .ub => some (.ub h)
    | some (.ok s' o) => run s' (h ++ [o]) ls

end Diminuto.Thread
