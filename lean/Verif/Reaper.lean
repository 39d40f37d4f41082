import Verif.Fletcher

/-!
# Model of the Reaper feature

The children of a process as the system keeps them, `waitpid(2)` as a relation, and the functions that use it.
-/

namespace Diminuto.Reaper

/-- A child: its process identifier, and its status if it has terminated and has not been waited for. -/
structure Child where
  pid : Int
  status : Option Int
deriving DecidableEq

/-- `ECHILD` and `EINTR`. -/
def ECHILD : Int := 10
def EINTR : Int := 4

/-- The process, so far: its children; and, for the statements only, the children that have terminated and those that have been reported, with their statuses, each in the order in which this happened. -/
structure Sys where
  children : List Child
  exited : List (Int × Int)
  reported : List (Int × Int)

/-- The child is one of those for which is waited: `pids` is -1 for any, or the child. -/
def selects (pids : Int) (c : Child) : Bool := pids = -1 || pids = c.pid

/-- `waitpid(2)` as called at `Diminuto/src/diminuto_reaper.c:89`, when it returns, for a `pids` that is -1 or greater than zero (so that groups of processes are left out): the value that it returns, the error number
if this is -1, the status that it stores if this is greater than zero, and the children that remain. -/
inductive Waitpid (pids : Int) (nohang : Bool) (s : List Child) : Int → Int → Int → List Child → Prop where
  /-- There is no such child. -/
  | echild (status : Int) (h : ∀ c ∈ s, selects pids c = false) : Waitpid pids nohang s (-1) ECHILD status s
  /-- One that has terminated. -/
  | one (errno status : Int) (c : Child) (h : c ∈ s) (hs : selects pids c = true) (hz : c.status = some status) : Waitpid pids nohang s c.pid errno status (s.erase c)
  /-- There are some, and none of them has terminated. -/
  | zero (errno status : Int) (hn : nohang = true) (c : Child) (h : c ∈ s) (hs : selects pids c = true) (hz : ∀ c ∈ s, selects pids c = true → c.status = none) : Waitpid pids nohang s 0 errno status s
  /-- A signal arrives in the wait. -/
  | eintr (status : Int) (hn : nohang = false) (c : Child) (h : c ∈ s) (hs : selects pids c = true) (hz : ∀ c ∈ s, selects pids c = true → c.status = none) : Waitpid pids nohang s (-1) EINTR status s

/-- `diminuto_reaper_reap_generic` after the system call, `Diminuto/src/diminuto_reaper.c:90-110`: the value that is returned, and what is stored, if the pointer is not null. -/
def reap (pid errno status : Int) : Int × Option Int :=
  let pid := if pid < 0 ∧ errno = ECHILD then 0 else pid
  (pid, if pid ≤ 0 then none else some status)

/-- What happens: a child is created, one terminates, and `diminuto_reaper_reap_generic` is called and returns this value and stores that. -/
inductive Event where
  | fork (pid : Int)
  | exit (pid status : Int)
  | call (pids : Int) (nohang : Bool) (result : Int) (stored : Option Int)

/-- The statuses that are reported by a call. -/
def reports (r : Int × Option Int) : List (Int × Int) :=
  match r.2 with
  | some status => [(r.1, status)]
  | none => []

/-- A step of the process. -/
inductive Step (s : Sys) : Event → Sys → Prop where
  /-- The identifiers of processes that have not been waited for are not used again. -/
  | fork (pid : Int) (hp : 0 < pid) (hf : ∀ c ∈ s.children, c.pid ≠ pid) : Step s (.fork pid) { s with children := ⟨pid, none⟩ :: s.children }
  /-- A child terminates. -/
  | exit (pid status : Int) (before after : List Child) (h : s.children = before ++ ⟨pid, none⟩ :: after) :
      Step s (.exit pid status) { s with children := before ++ ⟨pid, some status⟩ :: after, exited := s.exited ++ [(pid, status)] }
  /-- `diminuto_reaper_reap_generic`, `Diminuto/src/diminuto_reaper.c:84-111`; `diminuto_reaper_reap` is with -1 and `WNOHANG`, and `diminuto_reaper_wait` with -1 and without,
  `Diminuto/inc/com/diag/diminuto/diminuto_reaper.h:56-70`. -/
  | call (pids : Int) (nohang : Bool) (hp : pids = -1 ∨ 0 < pids) (pid errno status : Int) (children : List Child) (h : Waitpid pids nohang s.children pid errno status children) :
      Step s (.call pids nohang (reap pid errno status).1 (reap pid errno status).2) { s with children := children, reported := s.reported ++ reports (reap pid errno status) }

/-! ## A program that reaps when it is told to

`if (diminuto_reaper_check()) { while (diminuto_reaper_reap(&status) > 0) { … } }`, again and again. -/

/-- Where the program is: at the check, or in the loop. -/
inductive Pc where
  | check | loop
deriving DecidableEq

/-- The program, the pending SIGCHLD, and the counter of the handler. -/
structure Prog where
  sys : Sys
  pending : Bool
  signaled : Nat
  pc : Pc

/-- The greatest `int`, `Diminuto/src/diminuto_reaper.c:46`. -/
def MAXIMUM : Nat := 2147483647

/-- A step of the program or of the rest of the system.  `once` is for a program that reaps once and does not loop. -/
inductive Prog.Step (once : Bool) (x : Prog) : Prog → Prop where
  | fork (pid : Int) (y : Sys) (h : Reaper.Step x.sys (.fork pid) y) : Prog.Step once x { x with sys := y }
  /-- A child terminates, and SIGCHLD becomes pending, if it is not already. -/
  | exit (pid status : Int) (y : Sys) (h : Reaper.Step x.sys (.exit pid status) y) : Prog.Step once x { x with sys := y, pending := true }
  /-- The handler is executed, `Diminuto/src/diminuto_reaper.c:43-58`. -/
  | handle (h : x.pending = true) : Prog.Step once x { x with pending := false, signaled := if x.signaled < MAXIMUM then x.signaled + 1 else x.signaled }
  /-- `diminuto_reaper_check`, `Diminuto/src/diminuto_reaper.c:60-82`, which the handler does not interrupt. -/
  | check (h : x.pc = .check) : Prog.Step once x { x with signaled := 0, pc := if x.signaled = 0 then .check else .loop }
  /-- `diminuto_reaper_reap`. -/
  | reap (h : x.pc = .loop) (result : Int) (stored : Option Int) (y : Sys) (hs : Reaper.Step x.sys (.call (-1) true result stored) y) :
      Prog.Step once x { x with sys := y, pc := if result > 0 ∧ once = false then .loop else .check }

end Diminuto.Reaper
