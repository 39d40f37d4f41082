import Mathlib.Logic.Function.Basic

/-!
# Model of the Reader Writer module

`Diminuto/src/diminuto_readerwriter.c`.  Every function of the module does its work in a critical
section of the mutex of the object, except that a thread that waits gives up the mutex in
`pthread_cond_wait` or `pthread_cond_timedwait` and takes it again before these return.  So an execution
is a sequence of atomic steps, each from taking the mutex to giving it up: the beginning of a begin
call (up to its return or its wait), the return from a wait (up to the return of the begin call or the
next wait), and an end call.  `Sys.step` models each of them; the order of the steps is arbitrary.

The `N` threads are numbers.  The wait list is a list of threads, each thread having one
node (the functions on lists are verified in `ListProps.lean`).  Simplifications: the counters
are integers without bounds (the code has an `int32_t` for readers and waiters and an `int8_t` for
writers); memory and `pthread` calls do not fail; a failing `diminuto_contract` is `none`; debugging is
always on, so that the audit is always done (`:425-569`, of which the audit of the list itself is
left to `ListProps.lean`).
-/

namespace Diminuto.ReaderWriter

/-- `diminuto_readerwriter_role_t`, `Diminuto/src/diminuto_readerwriter.h:27-38`; the ones that a node
can have. -/
inductive Role
  | started | reader | writer | failed | readable | writable | running
deriving DecidableEq

/-- `diminuto_readerwriter_t`, `Diminuto/inc/com/diag/diminuto/diminuto_readerwriter.h:128-138`, and
the data (the role) of the node of each thread. -/
structure Lock (N : Nat) where
  queue : List (Fin N)
  data : Fin N → Role
  waiting : Int
  maximum : Int
  reading : Int
  writing : Int

variable {N : Nat}

/-- `diminuto_list_dataset`. -/
def Lock.dataset (l : Lock N) (t : Fin N) (r : Role) : Lock N :=
  { l with data := Function.update l.data t r }

/-- The nodes that `front` passes by, `Diminuto/src/diminuto_readerwriter.c:141-152`. -/
def passed (r : Role) : Bool :=
  match r with
  | .reader => false
  | .writer => false
  | .failed => false
  | _ => true

/-- `enqueue`, `Diminuto/src/diminuto_readerwriter.c:163-168`, with `front`, `:136-155`: the node is
inserted before the one that `front` returns, or, without priority, at the end. -/
def enqueue (l : Lock N) (t : Fin N) (priority : Bool) : Lock N :=
  let l := { l with waiting := l.waiting + 1 }
  let l := if l.waiting > l.maximum then { l with maximum := l.waiting } else l
  if priority then
    { l with queue := l.queue.takeWhile (fun n => passed (l.data n)) ++
        t :: l.queue.dropWhile (fun n => passed (l.data n)) }
  else { l with queue := l.queue ++ [t] }

/-- `dequeue`, `Diminuto/src/diminuto_readerwriter.c:175-179`. -/
def dequeue (l : Lock N) (t : Fin N) : Lock N :=
  { l with queue := l.queue.erase t, waiting := l.waiting - 1 }

/-- `head`, `Diminuto/src/diminuto_readerwriter.c:204-214`.  The loop removes a node each time,
so the number of nodes is enough fuel. -/
def headLoop : Nat → Lock N → Lock N × Option (Fin N)
  | 0, l => (l, none)
  | fuel + 1, l =>
    match l.queue with
    | [] => (l, none)
    | t :: _ => if l.data t = .failed then headLoop fuel (dequeue l t) else (l, some t)

/-- `head`, `Diminuto/src/diminuto_readerwriter.c:204-214`. -/
def head (l : Lock N) : Lock N × Option (Fin N) := headLoop (l.queue.length + 1) l

/-- The role required of the head of the list: `ANY`, `READER` or, never used, `WRITER`. -/
inductive Required
  | any | reader
deriving DecidableEq

/-- The condition variables. -/
inductive Cond
  | reader | writer
deriving DecidableEq

/-- The loop of `resume`, `Diminuto/src/diminuto_readerwriter.c:792-839`: the lock, the condition to be
signaled, if any, and the threads activated. -/
def resumeLoop : Nat → Lock N → Required → Option Cond → List (Fin N) →
    Lock N × Option Cond × List (Fin N)
  | 0, l, _, c, ts => (l, c, ts)
  | fuel + 1, l, required, c, ts =>
    match head l with
    | (l, none) => (l, c, ts)
    | (l, some t) =>
      if l.data t = .reader then
        let l := (dequeue l t).dataset t .readable
        resumeLoop fuel { l with reading := l.reading + 1 } .reader (some .reader) (ts ++ [t])
      else if l.data t = .writer ∧ required = .any then
        let l := (dequeue l t).dataset t .writable
        ({ l with writing := l.writing + 1 }, some .writer, ts ++ [t])
      else (l, c, ts)

/-- `resume(rwp, ANY)`, `Diminuto/src/diminuto_readerwriter.c:776-858`. -/
def resume (l : Lock N) : Lock N × Option Cond × List (Fin N) :=
  resumeLoop (l.queue.length + 1) l .any none []

/-- The contracts of `audit`, `Diminuto/src/diminuto_readerwriter.c:546-568`. -/
def Lock.audit (l : Lock N) : Bool :=
  0 ≤ l.reading && 0 ≤ l.writing && 0 ≤ l.waiting && 0 ≤ l.maximum && l.waiting ≤ l.maximum &&
  (l.queue.length : Int) == l.waiting &&
  l.queue.all fun t => l.data t == .reader || l.data t == .writer || l.data t == .failed

/-- Where a thread is: in neither of the begin functions, or waiting in one of them, with a
timeout or not. -/
inductive Phase
  | out
  | readerWait (timed : Bool)
  | writerWait (timed : Bool)
deriving DecidableEq

/-- The lock, the threads, and what happened so far: the calls of begin that succeeded and are
not yet ended (`readers`, `writers`), the number of calls of begin (`calls`), for each
thread the number of its latest one (`ticket`), and the numbers of those that have been granted the
lock, in order (`grants`). -/
structure Sys (N : Nat) where
  lock : Lock N
  phase : Fin N → Phase
  /-- The thread is waiting for a condition variable and has not been signaled. -/
  asleep : Fin N → Bool
  readers : List (Fin N)
  writers : List (Fin N)
  calls : Nat
  ticket : Fin N → Nat
  grants : List Nat

/-- `diminuto_readerwriter_init`, `Diminuto/src/diminuto_readerwriter.c:358-384`, and threads that have not
used the lock yet. -/
def Sys.init (N : Nat) : Sys N :=
  { lock := ⟨[], fun _ => .started, 0, 0, 0, 0⟩, phase := fun _ => .out, asleep := fun _ => false,
    readers := [], writers := [], calls := 0, ticket := fun _ => 0, grants := [] }

/-- The timeout of a begin call: `DIMINUTO_READERWRITER_POLL`, `DIMINUTO_READERWRITER_INFINITY`, or
some other. -/
inductive Timeout
  | poll | finite | infinity
deriving DecidableEq

/-- A step of a thread. -/
inductive Event (N : Nat)
  /-- `diminuto_reader_begin_f`, up to its return or its wait. -/
  | readerBegin (t : Fin N) (timeout : Timeout) (priority : Bool)
  /-- `diminuto_writer_begin_f`, up to its return or its wait. -/
  | writerBegin (t : Fin N) (timeout : Timeout) (priority : Bool)
  /-- The wait for the condition variable returns 0, signaled or not. -/
  | wake (t : Fin N)
  /-- The wait for the condition variable returns `ETIMEDOUT`. -/
  | timeout (t : Fin N)
  /-- `diminuto_reader_end`. -/
  | readerEnd (t : Fin N)
  /-- `diminuto_writer_end`. -/
  | writerEnd (t : Fin N)
  /-- `diminuto_readerwriter_maximum`, `Diminuto/src/diminuto_readerwriter.c:1222-1234`. -/
  | maximum

/-- A step that the thread can make: a thread in a begin function does nothing but wait,
a wait with an infinite timeout does not time out, and a thread that does not hold the lock does
not call an end function. -/
def Event.Legal (s : Sys N) : Event N → Prop
  | .readerBegin t _ _ => s.phase t = .out
  | .writerBegin t _ _ => s.phase t = .out
  | .wake t => s.phase t ≠ .out
  | .timeout t => s.phase t = .readerWait true ∨ s.phase t = .writerWait true
  | .readerEnd t => s.phase t = .out ∧ t ∈ s.readers
  | .writerEnd t => s.phase t = .out ∧ t ∈ s.writers
  | .maximum => True

/-- The thread takes a ticket. -/
def Sys.call (s : Sys N) (t : Fin N) : Sys N :=
  { s with ticket := Function.update s.ticket t s.calls, calls := s.calls + 1 }

/-- `audit` and the `diminuto_contract` at the end of a function. -/
def Sys.check (s : Sys N) (contract : Bool) : Option (Sys N) :=
  if s.lock.audit && contract then some s else none

/-- The contract on exit from `diminuto_reader_begin_f` with success,
`Diminuto/src/diminuto_readerwriter.c:938`. -/
def Lock.readerContract (l : Lock N) : Bool := 0 < l.reading && l.writing == 0 && 0 ≤ l.waiting

/-- The contract on exit from `diminuto_writer_begin_f` with success,
`Diminuto/src/diminuto_readerwriter.c:1105`. -/
def Lock.writerContract (l : Lock N) : Bool := l.reading == 0 && l.writing == 1 && 0 ≤ l.waiting

/-- The contract on exit from the end functions,
`Diminuto/src/diminuto_readerwriter.c:1023` and `:1179`. -/
def Lock.endContract (l : Lock N) : Bool :=
  (0 < l.reading && l.writing == 0 && 0 ≤ l.waiting) ||
  (l.reading == 0 && l.writing == 1 && 0 ≤ l.waiting) ||
  (l.reading == 0 && l.writing == 0 && l.waiting == 0)

/-- `suspend` up to the wait: the beginning of `schedule`, `Diminuto/src/diminuto_readerwriter.c:687-688`, and
of `satisfy`, `:590-656`. -/
def Sys.wait (s : Sys N) (t : Fin N) (role : Role) (phase : Phase) (priority : Bool) : Sys N :=
  { s with
    lock := enqueue (s.lock.dataset t role) t priority
    phase := Function.update s.phase t phase
    asleep := Function.update s.asleep t true }

/-- `diminuto_reader_begin_f`, `Diminuto/src/diminuto_readerwriter.c:863-943`. -/
def Sys.readerBegin (s : Sys N) (t : Fin N) (timeout : Timeout) (priority : Bool) : Option (Sys N) :=
  let s := s.call t
  let (lock, hd) := if s.lock.writing ≤ 0 then head s.lock else (s.lock, some t)
  if s.lock.writing ≤ 0 ∧ hd = none then
    let s := { s with
      lock := { lock with reading := lock.reading + 1 }
      readers := t :: s.readers, grants := s.grants ++ [s.ticket t] }
    s.check s.lock.readerContract
  else if timeout = .poll then { s with lock := lock }.check true
  else some ({ s with lock := lock }.wait t .reader (.readerWait (decide (timeout = Timeout.finite))) priority)

/-- `diminuto_writer_begin_f`, `Diminuto/src/diminuto_readerwriter.c:1030-1110`. -/
def Sys.writerBegin (s : Sys N) (t : Fin N) (timeout : Timeout) (priority : Bool) : Option (Sys N) :=
  let s := s.call t
  let (lock, hd) :=
    if s.lock.reading ≤ 0 ∧ s.lock.writing ≤ 0 then head s.lock else (s.lock, some t)
  if s.lock.reading ≤ 0 ∧ s.lock.writing ≤ 0 ∧ hd = none then
    let s := { s with
      lock := { lock with writing := lock.writing + 1 }
      writers := t :: s.writers, grants := s.grants ++ [s.ticket t] }
    s.check s.lock.writerContract
  else if timeout = .poll then { s with lock := lock }.check true
  else some ({ s with lock := lock }.wait t .writer (.writerWait (decide (timeout = Timeout.finite))) priority)

/-- The return of a begin function that has waited, with success: the end of `schedule`,
`Diminuto/src/diminuto_readerwriter.c:723`, and of the begin functions. -/
def Sys.activated (s : Sys N) (t : Fin N) : Option (Sys N) :=
  let s' := { s with
    lock := s.lock.dataset t .running
    phase := Function.update s.phase t .out
    asleep := Function.update s.asleep t false }
  match s.phase t with
  | .readerWait _ => { s' with readers := t :: s.readers }.check s'.lock.readerContract
  | .writerWait _ => { s' with writers := t :: s.writers }.check s'.lock.writerContract
  | .out => none

/-- The role that the thread waits for, `Diminuto/src/diminuto_readerwriter.c:747-753`. -/
def pending : Phase → Role
  | .readerWait _ => .readable
  | .writerWait _ => .writable
  | .out => .running

/-- The wait returns 0, `Diminuto/src/diminuto_readerwriter.c:603-609` and `:637-649`: the loop ends if
the thread is ready. -/
def Sys.wake (s : Sys N) (t : Fin N) : Option (Sys N) :=
  if s.lock.data t = pending (s.phase t) then s.activated t
  else some { s with asleep := Function.update s.asleep t true }

/-- The wait returns `ETIMEDOUT`, `Diminuto/src/diminuto_readerwriter.c:709-723`. -/
def Sys.timeout (s : Sys N) (t : Fin N) : Option (Sys N) :=
  if s.lock.data t = .readable then s.activated t
  else if s.lock.data t = .writable then s.activated t
  else
    { s with
      lock := (dequeue s.lock t).dataset t .running
      phase := Function.update s.phase t .out
      asleep := Function.update s.asleep t false }.check true

/-- `pthread_cond_broadcast`: the threads that wait for the condition variable are
awakened. -/
def Sys.broadcast (s : Sys N) (c : Option Cond) : Sys N :=
  match c with
  | none => s
  | some .reader => { s with asleep := fun t => match s.phase t with
      | .readerWait _ => false
      | _ => s.asleep t }
  | some .writer => { s with asleep := fun t => match s.phase t with
      | .writerWait _ => false
      | _ => s.asleep t }

/-- Calling `resume` and recording which calls have been granted the lock. -/
def Sys.resume (s : Sys N) : Sys N :=
  let r := ReaderWriter.resume s.lock
  { s with lock := r.1, grants := s.grants ++ r.2.2.map s.ticket }.broadcast r.2.1

/-- `diminuto_reader_end`, `Diminuto/src/diminuto_readerwriter.c:945-1028`. -/
def Sys.readerEnd (s : Sys N) (t : Fin N) : Option (Sys N) :=
  if 0 < s.lock.reading ∧ s.lock.writing = 0 then
    let s := { s with lock := { s.lock with reading := s.lock.reading - 1 }, readers := s.readers.erase t }
    let s := if 0 < s.lock.reading then s else s.resume
    s.check s.lock.endContract
  else none

/-- `diminuto_writer_end`, `Diminuto/src/diminuto_readerwriter.c:1112-1184`. -/
def Sys.writerEnd (s : Sys N) (t : Fin N) : Option (Sys N) :=
  if s.lock.reading = 0 ∧ s.lock.writing = 1 then
    let s := { s with lock := { s.lock with writing := s.lock.writing - 1 }, writers := s.writers.erase t }
    let s := s.resume
    s.check s.lock.endContract
  else none

/-- One step. -/
def Sys.step (s : Sys N) : Event N → Option (Sys N)
  | .readerBegin t timeout priority => s.readerBegin t timeout priority
  | .writerBegin t timeout priority => s.writerBegin t timeout priority
  | .wake t => s.wake t
  | .timeout t => s.timeout t
  | .readerEnd t => s.readerEnd t
  | .writerEnd t => s.writerEnd t
  | .maximum => some { s with lock := { s.lock with maximum := s.lock.waiting } }

/-- The states that steps for which `ok` holds lead to. -/
inductive Reach (ok : Sys N → Event N → Prop) : Sys N → Prop
  | init : Reach ok (Sys.init N)
  | step {s s' : Sys N} {e : Event N} :
      Reach ok s → ok s e → e.Legal s → s.step e = some s' → Reach ok s'

/-- Cancellation of a thread that waits.  `pthread_cond_wait` takes the mutex again and then runs the
cleanup functions.  `wait_cleanup`, `Diminuto/src/diminuto_readerwriter.c:255-279`: if the node is on the list it
takes the mutex, which the thread has already and which is not recursive (`:363`), so that it waits for
itself forever with the mutex taken: `none`.  Otherwise it does nothing, and then `mutex_cleanup` gives
up the mutex. -/
def Sys.cancel (s : Sys N) (t : Fin N) : Option (Sys N) :=
  if t ∈ s.lock.queue then none
  else some { s with phase := Function.update s.phase t .out, asleep := Function.update s.asleep t false }

end Diminuto.ReaderWriter
