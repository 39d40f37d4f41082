import Verif.Fletcher

/-!
# Model of the Daemon feature

Three processes: the parent, which calls the function, its child, and its grandchild, which is to be the daemon.  They run concurrently, so that a state of them has as many successors as there are processes that
can go on.
-/

namespace Diminuto.Daemon

/-- `diminuto_daemon`, `diminuto_service`, or `diminuto_system`. -/
inductive Kind where
  | daemon | service | system
deriving DecidableEq

/-- What is waited for: the status of a process that has ended, `Diminuto/src/diminuto_daemon.c:119-127`. -/
inductive Status where
  | exited (code : Nat)
  | signaled
deriving DecidableEq

/-- The parent. -/
inductive Parent where
  /-- At the beginning of the function. -/
  | start
  /-- In the loop with `waitpid(2)`. -/
  | waiting
  /-- The function has returned this. -/
  | returned (value : Int)
  /-- The process has ended. -/
  | exited (code : Nat)
deriving DecidableEq

/-- The child. -/
inductive Child where
  /-- There is none, yet. -/
  | none
  /-- Before it forks. -/
  | start
  /-- After it has forked, before it exits. -/
  | forked
  /-- It has ended, and it is waited for. -/
  | zombie (status : Status)
  /-- It has ended, and it is no more. -/
  | gone
deriving DecidableEq

/-- The grandchild. -/
inductive Grandchild where
  | none
  /-- It changes its own context, and the context of nothing else. -/
  | start
  /-- The function has returned this. -/
  | returned (value : Int)
  /-- It has been replaced by the shell. -/
  | executing
  /-- The process has ended. -/
  | exited (code : Nat)
deriving DecidableEq

/-- The state of the three. -/
structure State where
  parent : Parent
  child : Child
  grandchild : Grandchild
deriving DecidableEq

/-- What is given: the function, whether `SIGCHLD` is ignored by the process or reaps (`SA_NOCLDWAIT`), so that the child does not become a zombie, and whether the parent of the parent is process 1. -/
structure Setting where
  kind : Kind
  ignored : Bool
  orphan : Bool

/-- At the beginning. -/
def initial : State := ⟨.start, .none, .none⟩

/-- The parent is done without success: `_exit(1)` at `Diminuto/src/diminuto_daemon.c:336-337`, and `return -1` at `:398-399` and `:442-443`. -/
def failure : Kind → Parent
  | .daemon => .exited 1
  | .service => .returned (-1)
  | .system => .returned (-1)

/-- The parent is done with success: `_exit(0)` at `Diminuto/src/diminuto_daemon.c:341`, `return !0` at `:403`, and `return 0` at `:447`. -/
def success : Kind → Parent
  | .daemon => .exited 0
  | .service => .returned 1
  | .system => .returned 0

/-- What the parent makes of the status of its child, `Diminuto/src/diminuto_daemon.c:119-127`. -/
def judge (k : Kind) : Status → Parent
  | .exited code => if code ≠ 0 then failure k else success k
  | .signaled => failure k

/-- What a child becomes when it ends: with `SIGCHLD` ignored it is no more, and so it is without a parent. -/
def ended (c : Setting) (status : Status) : Child := if c.ignored then .gone else .zombie status

/-- The steps of the three processes. -/
inductive Step (c : Setting) : State → State → Prop where
  /-- `diminuto_daemon_verify`, `Diminuto/src/diminuto_daemon.c:67-85` and `:322-328`: the process is a daemon already.  (`getppid(2)` does not fail.) -/
  | already (g : Grandchild) : c.kind = .daemon → c.orphan = true → Step c ⟨.start, .none, g⟩ ⟨.returned 0, .none, g⟩
  /-- `fork(2)` by the parent fails, `Diminuto/src/diminuto_daemon.c:98-99`. -/
  | unforked (g : Grandchild) : ¬ (c.kind = .daemon ∧ c.orphan = true) → Step c ⟨.start, .none, g⟩ ⟨failure c.kind, .none, g⟩
  /-- It succeeds. -/
  | fork (g : Grandchild) : ¬ (c.kind = .daemon ∧ c.orphan = true) → Step c ⟨.start, .none, g⟩ ⟨.waiting, .start, g⟩
  /-- `waitpid(2)` is interrupted, `Diminuto/src/diminuto_daemon.c:110-111`. -/
  | interrupted (x : Child) (g : Grandchild) : Step c ⟨.waiting, x, g⟩ ⟨.waiting, x, g⟩
  /-- It reaps the child, `Diminuto/src/diminuto_daemon.c:106-107`. -/
  | reap (status : Status) (g : Grandchild) : Step c ⟨.waiting, .zombie status, g⟩ ⟨judge c.kind status, .gone, g⟩
  /-- There is no child, `ECHILD`, `Diminuto/src/diminuto_daemon.c:112-113` and `:119-120`. -/
  | childless (g : Grandchild) : Step c ⟨.waiting, .gone, g⟩ ⟨failure c.kind, .gone, g⟩
  /-- `fork(2)` by the child fails, `Diminuto/src/diminuto_daemon.c:142-143` and `:350-351`. -/
  | unreforked (p : Parent) : Step c ⟨p, .start, .none⟩ ⟨p, ended c (.exited 1), .none⟩
  /-- It succeeds. -/
  | refork (p : Parent) : Step c ⟨p, .start, .none⟩ ⟨p, .forked, .start⟩
  /-- The child exits, `Diminuto/src/diminuto_daemon.c:355`. -/
  | exit (p : Parent) (g : Grandchild) : Step c ⟨p, .forked, g⟩ ⟨p, ended c (.exited 0), g⟩
  /-- The child is killed by a signal, before it forks. -/
  | killed (p : Parent) (g : Grandchild) : Step c ⟨p, .start, g⟩ ⟨p, ended c .signaled, g⟩
  /-- Or after that. -/
  | killed' (p : Parent) (g : Grandchild) : Step c ⟨p, .forked, g⟩ ⟨p, ended c .signaled, g⟩
  /-- The function returns to the grandchild, `Diminuto/src/diminuto_daemon.c:366` and `:429`. -/
  | detach (p : Parent) (x : Child) : c.kind ≠ .system → Step c ⟨p, x, .start⟩ ⟨p, x, .returned 0⟩
  /-- The grandchild becomes the shell, `Diminuto/src/diminuto_daemon.c:474`. -/
  | exec (p : Parent) (x : Child) : c.kind = .system → Step c ⟨p, x, .start⟩ ⟨p, x, .executing⟩
  /-- It does not, `Diminuto/src/diminuto_daemon.c:475-476`. -/
  | unexec (p : Parent) (x : Child) : c.kind = .system → Step c ⟨p, x, .start⟩ ⟨p, x, .exited 1⟩

/-- The states that the three come to. -/
inductive Reaches (c : Setting) : State → Prop where
  | initial : Reaches c initial
  | step {s t : State} : Reaches c s → Step c s t → Reaches c t

end Diminuto.Daemon
