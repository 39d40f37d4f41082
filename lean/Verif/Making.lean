import Verif.Thread
import Verif.Timer

/-!
# Model of how timers and threads are initialized and finalized

`diminuto_timer_init_base`, `diminuto_timer_init_generic` and `diminuto_timer_fini`, `Diminuto/src/diminuto_timer.c:113-249`; `diminuto_thread_init_generic`, `diminuto_thread_init_base` and
`diminuto_thread_fini`, `Diminuto/src/diminuto_thread.c:173-281`; the conditions and the mutexes of both; and `diminuto_timer_window`.  What each call of POSIX returns is arbitrary.  The model
keeps account of which POSIX objects are there; to use or to destroy one that is not, or to initialize one that is, is undefined.

Simplifications: what is logged, `errno` and `sched_yield(2)` are left out.  Numbers are those of Linux.  No other thread has the object.
-/

namespace Diminuto.Making

/-- The POSIX objects in a timer or a thread. -/
inductive Res where
  | attributes | mutexattr | mutex | condition | timer
deriving DecidableEq, Repr

/-- `struct sigevent`: a thread that calls a function, or a signal. -/
inductive Notify where
  | thread (fp : Nat)
  | signal (signum : Int)
deriving DecidableEq, Repr

/-- The calls of POSIX. -/
inductive Call where
  | attrInit | setInherit | setPolicy (scheduler : Int) | minimum (scheduler : Int) | maximum (scheduler : Int) | setParam (priority : Int)
  | mutexattrInit | setType | mutexInit | condInit | timerCreate (n : Notify)
  | timerDelete | attrDestroy | broadcast | condDestroy | mutexDestroy | mutexattrDestroy
deriving DecidableEq, Repr

/-- What they return. -/
abbrev World := Call → Int

/-- A call succeeds: those of the real-time extensions return less than zero if not, the others something other than zero. -/
def ok (w : World) : Call → Bool
  | .minimum s => decide (0 ≤ w (.minimum s))
  | .maximum s => decide (0 ≤ w (.maximum s))
  | .timerCreate n => decide (0 ≤ w (.timerCreate n))
  | .timerDelete => decide (0 ≤ w .timerDelete)
  | c => decide (w c = 0)

/-- What a call makes. -/
def makes : Call → Option Res
  | .attrInit => some .attributes
  | .mutexattrInit => some .mutexattr
  | .mutexInit => some .mutex
  | .condInit => some .condition
  | .timerCreate _ => some .timer
  | _ => none

/-- What a call destroys. -/
def destroys : Call → Option Res
  | .attrDestroy => some .attributes
  | .mutexattrDestroy => some .mutexattr
  | .mutexDestroy => some .mutex
  | .condDestroy => some .condition
  | .timerDelete => some .timer
  | _ => none

/-- What a call needs. -/
def needs : Call → List Res
  | .setInherit | .setPolicy _ | .setParam _ | .attrDestroy | .timerCreate (.thread _) => [.attributes]
  | .setType | .mutexInit | .mutexattrDestroy => [.mutexattr]
  | .mutexDestroy => [.mutex]
  | .broadcast | .condDestroy => [.condition]
  | .timerDelete => [.timer]
  | _ => []

structure S where
  live : Res → Bool
  /-- Something undefined has been done. -/
  ub : Bool
  /-- The calls, the latest first. -/
  log : List Call

/-- Nothing has been made. -/
def fresh : S := ⟨fun _ => false, false, []⟩

/-- A call is made. -/
def ask (w : World) (s : S) (c : Call) : S where
  live := fun r =>
    if ok w c then (if makes c = some r then true else if destroys c = some r then false else s.live r) else s.live r
  ub := s.ub || (needs c).any (fun r => !s.live r) || (match makes c with | some r => s.live r | none => false)
  log := c :: s.log

/-- `diminuto_mutex_init`, `Diminuto/src/diminuto_mutex.c:26-47`. -/
def mutexInit (w : World) (s : S) : Bool × S :=
  let s := ask w s .mutexattrInit
  if ok w .mutexattrInit then
    let s := ask w s .setType
    if ok w .setType then
      (ok w .mutexInit, ask w s .mutexInit)
    else (false, s)
  else (false, s)

/-- `diminuto_mutex_fini`, `Diminuto/src/diminuto_mutex.c:49-65`; whether it succeeds. -/
def mutexFini (w : World) (s : S) : Bool × S :=
  let s := ask w s .mutexDestroy
  if ok w .mutexDestroy then (ok w .mutexattrDestroy, ask w s .mutexattrDestroy)
  else (false, s)

/-- `diminuto_condition_init`, `Diminuto/src/diminuto_condition.c:28-45`. -/
def conditionInit (w : World) (s : S) : Bool × S :=
  match mutexInit w s with
  | (false, s) => (false, s)
  | (true, s) => (ok w .condInit, ask w s .condInit)

/-- `diminuto_condition_fini`, `Diminuto/src/diminuto_condition.c:47-68`; whether it succeeds. -/
def conditionFini (w : World) (s : S) : Bool × S :=
  let s := ask w s .broadcast
  if ok w .broadcast then
    let s := ask w s .condDestroy
    if ok w .condDestroy then mutexFini w s
    else (false, s)
  else (false, s)

/-- The scheduling attributes, `Diminuto/src/diminuto_timer.c:155-189` and `Diminuto/src/diminuto_thread.c:210-244`. -/
def schedule (w : World) (s : S) (scheduler priority : Int) : Bool × S :=
  let s := ask w s .setInherit
  if ok w .setInherit then
    let s := ask w s (.setPolicy scheduler)
    if ok w (.setPolicy scheduler) then
      let s := ask w s (.minimum scheduler)
      let limit := w (.minimum scheduler)
      if limit < 0 then (false, s)
      else
        let priority := if priority < limit then limit else priority
        let s := ask w s (.maximum scheduler)
        let limit := w (.maximum scheduler)
        if limit < 0 then (false, s)
        else
          let priority := if limit < priority then limit else priority
          (ok w (.setParam priority), ask w s (.setParam priority))
    else (false, s)
  else (false, s)

/-- What `diminuto_timer_init_base` leaves in the object. -/
structure Timer where
  function : Option Nat
  periodic : Bool
  phase : Timer.Phase
deriving DecidableEq

/-- The end of `diminuto_timer_init_base`, `Diminuto/src/diminuto_timer.c:213-218`. -/
def create (w : World) (s : S) (t : Timer) (n : Notify) : Option Timer × S :=
  (if ok w (.timerCreate n) then some t else none, ask w s (.timerCreate n))

/-- `diminuto_timer_init_base`, `Diminuto/src/diminuto_timer.c:129-226`. -/
def timerInit (w : World) (s : S) (periodic : Bool) (fp : Option Nat) (signum scheduler priority : Int) : Option Timer × S :=
  let s := ask w s .attrInit
  if ok w .attrInit then
    match (if fp.isSome then schedule w s scheduler priority else (true, s)) with
    | (false, s) => (none, s)
    | (true, s) =>
      match conditionInit w s with
      | (false, s) => (none, s)
      | (true, s) =>
        match fp with
        | some f => if 0 < signum then (none, s) else create w s ⟨some f, periodic, .idle⟩ (.thread f)
        | none => if 0 < signum then create w s ⟨none, periodic, .idle⟩ (.signal signum) else (none, s)
  else (none, s)

/-- `SCHED_OTHER`, `SCHED_FIFO` and `SCHED_RR`, of which `Diminuto/inc/com/diag/diminuto/diminuto_policy.h:60-62` makes the default and those of timers and of threads. -/
def SCHED_OTHER : Int := 0
def SCHED_FIFO : Int := 1
def SCHED_RR : Int := 2

/-- `diminuto_timer_init_generic`, `Diminuto/src/diminuto_timer.c:113-127`, with the priorities of `Diminuto/inc/com/diag/diminuto/diminuto_policy.h:81-83`. -/
def timerGeneric (w : World) (s : S) (euid : Nat) (periodic : Bool) (fp : Option Nat) (signum : Int) : Option Timer × S :=
  if euid = 0 then timerInit w s periodic fp signum SCHED_FIFO 49 else timerInit w s periodic fp signum SCHED_OTHER 0

/-- `diminuto_timer_fini`, `Diminuto/src/diminuto_timer.c:228-249`; whether it succeeds. -/
def timerFini (w : World) (s : S) : Bool × S :=
  let s := ask w s .timerDelete
  let s := ask w s .attrDestroy
  let (c, s) := conditionFini w s
  (ok w .timerDelete && ok w .attrDestroy && c, s)

/-- `diminuto_thread_init_base`, `Diminuto/src/diminuto_thread.c:189-253`; the state of the object, if the function succeeds. -/
def threadInit (w : World) (s : S) (scheduler priority : Int) : Option Thread.State × S :=
  match conditionInit w s with
  | (false, s) => (none, s)
  | (true, s) =>
    match schedule w s scheduler priority with
    | (false, s) => (none, s)
    | (true, s) => (some .initialized, s)

/-- `diminuto_thread_init_generic`, `Diminuto/src/diminuto_thread.c:173-187`. -/
def threadGeneric (w : World) (s : S) (euid : Nat) : Option Thread.State × S :=
  if euid = 0 then threadInit w s SCHED_RR 48 else threadInit w s SCHED_OTHER 0

/-- States, and those that `Thread.State` leaves out, `Diminuto/inc/com/diag/diminuto/diminuto_thread.h:85-95`. -/
inductive Life where
  | allocated
  | finalized
  | other (s : Thread.State)
deriving DecidableEq

/-- `diminuto_thread_fini`, `Diminuto/src/diminuto_thread.c:255-281`; whether it succeeds, and the state it leaves. -/
def threadFini (w : World) (s : S) : Life → (Bool × Life) × S
  | .other .initialized =>
    match conditionFini w s with
    | (true, s) => ((true, .finalized), s)
    | (false, s) => ((false, .other .initialized), s)
  | .other .joined =>
    match conditionFini w s with
    | (true, s) => ((true, .finalized), s)
    | (false, s) => ((false, .other .joined), s)
  | .other .failed =>
    match conditionFini w s with
    | (true, s) => ((true, .finalized), s)
    | (false, s) => ((false, .other .failed), s)
  | .allocated => ((true, .finalized), s)
  | .finalized => ((true, .finalized), s)
  | l => ((false, l), s)

/-- `diminuto_timer_window`, `Diminuto/src/diminuto_timer.h:31-43`. -/
def window (interval : BitVec 64) : BitVec 64 :=
  let minimum := 1000000000#64
  let result := interval * 2#64
  if result < minimum then minimum else result

end Diminuto.Making
