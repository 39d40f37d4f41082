import Verif.Time

/-!
# Model of the Condition and the Mutex features

Any number of threads, each of which makes any calls in any order.  The mutex of a condition is recursive.
-/

namespace Diminuto.Condition
open Time (ticks2wholeseconds ticks2fractionalseconds)

/-- The results of the functions: zero and error numbers. -/
inductive Code where
  | ok | busy | perm | inval | timedout
deriving DecidableEq

/-- The functions. -/
inductive Call where
  /-- `diminuto_mutex_lock`, `diminuto_condition_lock`. -/
  | lock
  /-- `diminuto_mutex_lock_try`, `diminuto_condition_lock_try`. -/
  | attempt
  /-- `diminuto_mutex_unlock`, `diminuto_condition_unlock`. -/
  | unlock
  /-- `diminuto_condition_wait_until`, and `diminuto_condition_wait` with all bits set. -/
  | wait (clocktime : BitVec 64)
  /-- `diminuto_condition_signal`. -/
  | signal
deriving DecidableEq

/-- The time until which a thread waits, seconds and nanoseconds, or for ever, `Diminuto/src/diminuto_condition.c:76-85`.  The parameter is an unsigned number that is given to functions of signed ones.
The result `none` would be undefined behaviour. -/
def later (clocktime : BitVec 64) : Option (Option (Int × Int)) :=
  if clocktime = 0xffffffffffffffff#64 then some none
  else (ticks2wholeseconds clocktime.toInt).bind fun s => (ticks2fractionalseconds clocktime.toInt 1000000000).map fun n => some (s, n)

/-- What a thread is doing. -/
inductive Status where
  | active
  /-- It waits for a signal, until some time. -/
  | waiting (clocktime : BitVec 64) (deadline : Option (Int × Int))
  /-- It has been woken and waits for the mutex. -/
  | woken (clocktime : BitVec 64) (rc : Code)
deriving DecidableEq

/-- A thread: what it does, and the results of the calls that it has made. -/
structure Thread where
  status : Status
  log : List (Call × Code)

/-- The process: its threads, the owner of the mutex, how often it has locked it, and the time, in nanoseconds. -/
structure Sys where
  threads : Nat → Thread
  owner : Option Nat
  depth : Nat
  now : Int

/-- The process with another thread. -/
def Sys.put (x : Sys) (t : Nat) (th : Thread) (owner : Option Nat) (depth : Nat) : Sys :=
  { x with threads := fun u => if u = t then th else x.threads u, owner := owner, depth := depth }

/-- The mutex is unlocked once by its owner. -/
def release (t depth : Nat) : Option Nat := if depth = 1 then none else some t

/-- What a broadcast makes of a thread, `Diminuto/src/diminuto_condition.c:103`. -/
def wake (th : Thread) : Thread :=
  match th.status with
  | .waiting c _ => { th with status := .woken c .ok }
  | _ => th

/-- What happens in a step. -/
inductive Label where
  /-- A call is made and returns. -/
  | did (t : Nat) (c : Call) (rc : Code)
  /-- A thread begins to wait. -/
  | sleep (t : Nat) (clocktime : BitVec 64)
  /-- A waiting thread is woken, but by a signal. -/
  | stir (t : Nat)
  /-- A wait is over. -/
  | resume (t : Nat) (clocktime : BitVec 64) (rc : Code)
  /-- Time goes by. -/
  | clock

/-- A step of the process. -/
inductive Step (x : Sys) : Label → Sys → Prop where
  /-- `diminuto_mutex_lock`, `Diminuto/src/diminuto_mutex.c:69-79`: the mutex is free, or has been locked by this thread; a thread for which it is not waits. -/
  | lock (t : Nat) (log : List (Call × Code)) (h : x.threads t = ⟨.active, log⟩) (ho : x.owner = none ∨ x.owner = some t) :
      Step x (.did t .lock .ok) (x.put t ⟨.active, log ++ [(.lock, .ok)]⟩ (some t) (x.depth + 1))
  /-- `diminuto_mutex_lock_try`, `Diminuto/src/diminuto_mutex.c:81-95`. -/
  | attempt (t : Nat) (log : List (Call × Code)) (h : x.threads t = ⟨.active, log⟩) (ho : x.owner = none ∨ x.owner = some t) :
      Step x (.did t .attempt .ok) (x.put t ⟨.active, log ++ [(.attempt, .ok)]⟩ (some t) (x.depth + 1))
  /-- The same when another thread has locked it, `:87-88`. -/
  | busy (t : Nat) (log : List (Call × Code)) (h : x.threads t = ⟨.active, log⟩) (ho : ¬ (x.owner = none ∨ x.owner = some t)) :
      Step x (.did t .attempt .busy) (x.put t ⟨.active, log ++ [(.attempt, .busy)]⟩ x.owner x.depth)
  /-- `diminuto_mutex_unlock`, `Diminuto/src/diminuto_mutex.c:97-107`. -/
  | unlock (t : Nat) (log : List (Call × Code)) (h : x.threads t = ⟨.active, log⟩) (ho : x.owner = some t) :
      Step x (.did t .unlock .ok) (x.put t ⟨.active, log ++ [(.unlock, .ok)]⟩ (release t x.depth) (x.depth - 1))
  /-- The same when it is not the owner: recursive mutexes check that. -/
  | unowned (t : Nat) (log : List (Call × Code)) (h : x.threads t = ⟨.active, log⟩) (ho : x.owner ≠ some t) :
      Step x (.did t .unlock .perm) (x.put t ⟨.active, log ++ [(.unlock, .perm)]⟩ x.owner x.depth)
  /-- `diminuto_condition_wait_until`, `Diminuto/src/diminuto_condition.c:71-97`, with a time of which the nanoseconds are not such. -/
  | invalid (t : Nat) (c : BitVec 64) (s n : Int) (log : List (Call × Code)) (h : x.threads t = ⟨.active, log⟩) (hc : later c = some (some (s, n))) (hn : n < 0 ∨ 1000000000 ≤ n) :
      Step x (.did t (.wait c) .inval) (x.put t ⟨.active, log ++ [(.wait c, .inval)]⟩ x.owner x.depth)
  /-- The same by a thread that is not the owner. -/
  | unlocked (t : Nat) (c : BitVec 64) (d : Option (Int × Int)) (log : List (Call × Code)) (h : x.threads t = ⟨.active, log⟩) (hc : later c = some d) (hn : ∀ s n, d = some (s, n) → 0 ≤ n ∧ n < 1000000000)
      (ho : x.owner ≠ some t) : Step x (.did t (.wait c) .perm) (x.put t ⟨.active, log ++ [(.wait c, .perm)]⟩ x.owner x.depth)
  /-- The same by the owner: the mutex is unlocked, once. -/
  | wait (t : Nat) (c : BitVec 64) (d : Option (Int × Int)) (log : List (Call × Code)) (h : x.threads t = ⟨.active, log⟩) (hc : later c = some d) (hn : ∀ s n, d = some (s, n) → 0 ≤ n ∧ n < 1000000000)
      (ho : x.owner = some t) : Step x (.sleep t c) (x.put t ⟨.waiting c d, log⟩ (release t x.depth) (x.depth - 1))
  /-- `diminuto_condition_signal`, `Diminuto/src/diminuto_condition.c:99-117`: all the threads that wait are woken. -/
  | signal (t : Nat) (log : List (Call × Code)) (h : x.threads t = ⟨.active, log⟩) :
      Step x (.did t .signal .ok) { x with threads := fun u => if u = t then ⟨.active, log ++ [(.signal, .ok)]⟩ else wake (x.threads u) }
  /-- A thread is woken without a signal. -/
  | spurious (t : Nat) (c : BitVec 64) (d : Option (Int × Int)) (log : List (Call × Code)) (h : x.threads t = ⟨.waiting c d, log⟩) : Step x (.stir t) (x.put t ⟨.woken c .ok, log⟩ x.owner x.depth)
  /-- A thread is woken because of the time. -/
  | timeout (t : Nat) (c : BitVec 64) (s n : Int) (log : List (Call × Code)) (h : x.threads t = ⟨.waiting c (some (s, n)), log⟩) (hn : s * 1000000000 + n ≤ x.now) :
      Step x (.stir t) (x.put t ⟨.woken c .timedout, log⟩ x.owner x.depth)
  /-- A thread that has been woken gets the mutex, and the function returns. -/
  | resume (t : Nat) (c : BitVec 64) (rc : Code) (log : List (Call × Code)) (h : x.threads t = ⟨.woken c rc, log⟩) (ho : x.owner = none ∨ x.owner = some t) :
      Step x (.resume t c rc) (x.put t ⟨.active, log ++ [(.wait c, rc)]⟩ (some t) (x.depth + 1))
  /-- Time goes by. -/
  | clock (now : Int) (h : x.now ≤ now) : Step x .clock { x with now := now }

/-! ## A handoff

Threads that wait for a variable, and threads that set it, in the way that the documentation of conditions prescribes: an example of callers. -/

/-- Where a thread is. -/
inductive Pc where
  /-- A thread that waits for the variable: before it locks the mutex, before it looks at the variable, having seen that it is not set, in the wait, having seen that it is set, and having unlocked the mutex. -/
  | begin | look | unset | asleep | seen | done
  /-- A thread that sets the variable: before it locks the mutex, before it sets the variable, before it signals, before it unlocks the mutex, and after that. -/
  | prepare | raise | notify | leave | finished
deriving DecidableEq

/-- The process, where its threads are, and the variable. -/
structure Handoff where
  sys : Sys
  pc : Nat → Pc
  flag : Bool

/-- A thread goes on. -/
def goto (pc : Nat → Pc) (t : Nat) (p : Pc) : Nat → Pc := fun u => if u = t then p else pc u

/-- The steps of the threads: `lock`, `while (!flag) wait`, `unlock`, and `lock`, `flag = true`, `signal`, `unlock`. -/
inductive Handoff.Step (x : Handoff) : Handoff → Prop where
  | lock (t : Nat) (y : Sys) (h : x.pc t = .begin) (hs : Condition.Step x.sys (.did t .lock .ok) y) : Handoff.Step x ⟨y, goto x.pc t .look, x.flag⟩
  | look (t : Nat) (h : x.pc t = .look) : Handoff.Step x ⟨x.sys, goto x.pc t (if x.flag then .seen else .unset), x.flag⟩
  | sleep (t : Nat) (y : Sys) (h : x.pc t = .unset) (hs : Condition.Step x.sys (.sleep t 0xffffffffffffffff#64) y) : Handoff.Step x ⟨y, goto x.pc t .asleep, x.flag⟩
  | stir (t : Nat) (y : Sys) (hs : Condition.Step x.sys (.stir t) y) : Handoff.Step x ⟨y, x.pc, x.flag⟩
  | resume (t : Nat) (c : BitVec 64) (rc : Code) (y : Sys) (h : x.pc t = .asleep) (hs : Condition.Step x.sys (.resume t c rc) y) : Handoff.Step x ⟨y, goto x.pc t .look, x.flag⟩
  | unlock (t : Nat) (y : Sys) (rc : Code) (h : x.pc t = .seen) (hs : Condition.Step x.sys (.did t .unlock rc) y) : Handoff.Step x ⟨y, goto x.pc t .done, x.flag⟩
  | prepare (t : Nat) (y : Sys) (h : x.pc t = .prepare) (hs : Condition.Step x.sys (.did t .lock .ok) y) : Handoff.Step x ⟨y, goto x.pc t .raise, x.flag⟩
  | raise (t : Nat) (h : x.pc t = .raise) : Handoff.Step x ⟨x.sys, goto x.pc t .notify, true⟩
  | notify (t : Nat) (y : Sys) (rc : Code) (h : x.pc t = .notify) (hs : Condition.Step x.sys (.did t .signal rc) y) : Handoff.Step x ⟨y, goto x.pc t .leave, x.flag⟩
  | leave (t : Nat) (y : Sys) (rc : Code) (h : x.pc t = .leave) (hs : Condition.Step x.sys (.did t .unlock rc) y) : Handoff.Step x ⟨y, goto x.pc t .finished, x.flag⟩

end Diminuto.Condition
