import Verif.Fletcher

/-!
# Model of the Lock feature

Models `diminuto_lock_lock`, `diminuto_lock_prelock`, `diminuto_lock_postlock`, `diminuto_lock_file` and
`diminuto_lock_unlock` of `Diminuto/src/diminuto_lock.c` on one lock file, as a transition system of any number of processes.  A step is a
system call (or a call of the C library that makes one); a process can crash between any two.  The file
system has names, and files (inodes) with bytes; an open file stays what it is if its name
is removed or used for another file.  A process is its PID.

Simplifications: the temporary names of lock, postlock and file, which have different suffixes, are taken from the same
set of names.  `mkstemp` that fails is followed by `unlink` of the template, which is taken not to be the name of
a file.  Which error it is that a system call returns only matters for `EEXIST` and `ENOENT` of `renameat2`.
-/

namespace Diminuto.Lock

/-- Names of files: the lock file, and what `mkstemp` makes of the template
(`Diminuto/src/diminuto_lock.c:40-45`). -/
inductive Name
  | lock
  | temp (t : Nat)
  deriving DecidableEq

/-- Which function: `diminuto_lock_lock` (`RENAME_NOREPLACE`, `Diminuto/src/diminuto_lock.c:113-116`) or
`diminuto_lock_postlock` (`RENAME_EXCHANGE`, `:160-163`) or `diminuto_lock_file` (neither, `:226-229`). -/
inductive Kind
  | lock
  | post
  | file
  deriving DecidableEq

/-- Where a process is. -/
inductive Pc
  /-- Not in a function. -/
  | idle
  /-- Before `mkstemp`, `Diminuto/src/diminuto_lock.c:45`. -/
  | start (k : Kind)
  /-- The temporary file is open, `:54-64`; some bytes are still to be written. -/
  | opened (k : Kind) (t i : Nat) (rest : List Byte)
  /-- The temporary file has been written and closed, before `renameat2`, `:76`. -/
  | closed (k : Kind) (t : Nat)
  /-- Before the final `unlink`, `:106-108`, with the value to be returned; no name if there is no temporary file. -/
  | cleanup (t : Option Nat) (ok : Bool)
  /-- Undefined behaviour. -/
  | undefined (t : Nat)
  /-- Crashed, with a temporary name in use or not. -/
  | dead (t : Option Nat)
  deriving DecidableEq

/-- What happened at the instant at which a function took effect, or failed. -/
inductive Act
  | locked (p : Nat)
  | prelocked (p : Nat)
  | postlocked (p : Nat)
  | filed (p : Nat)
  | unlocked (p : Nat)
  /-- Lock or prelock failed because there is a lock file. -/
  | exists_ (p : Nat)
  /-- Postlock or unlock failed because there is no lock file. -/
  | absent (p : Nat)
  /-- The temporary file was gone. -/
  | lost (p : Nat)
  /-- Another error. -/
  | error (p : Nat)
  deriving DecidableEq

/-- The file system, the processes, and the history of what happened, the last first. -/
structure State where
  dir : Name → Option Nat
  data : Nat → List Byte
  next : Nat
  pc : Nat → Pc
  log : List Act

/-- An event, of one process each. -/
inductive Event
  | call (p : Nat) (k : Kind)
  | mkstemp (p t : Nat)
  | mkstempFail (p : Nat)
  /-- The C library writes some bytes. -/
  | write (p n : Nat)
  | fclose (p : Nat)
  /-- `fdopen` or `fprintf` fails, and the file is closed. -/
  | openFail (p : Nat)
  | fcloseFail (p : Nat)
  | rename (p : Nat)
  | renameFail (p : Nat)
  | unlinkTemp (p : Nat)
  | prelock (p : Nat)
  | prelockFail (p : Nat)
  | unlock (p : Nat)
  | unlockFail (p : Nat)
  | crash (p : Nat)
  deriving DecidableEq

/-- Assignment to one element. -/
def upd {α β : Type} [DecidableEq α] (f : α → β) (i : α) (x : β) : α → β := fun j => if j = i then x else f j

/-- A new file with no bytes: `mkstemp`, or `open` with `O_CREAT` and `O_EXCL`
(`Diminuto/src/diminuto_lock.c:45` and `:141`). -/
def create (s : State) (n : Name) : State :=
  { s with dir := upd s.dir n (some s.next), data := upd s.data s.next [], next := s.next + 1 }

/-- A process goes on. -/
def go (s : State) (p : Nat) (c : Pc) : State := { s with pc := upd s.pc p c }

/-- Something happened. -/
def note (s : State) (a : Act) : State := { s with log := a :: s.log }

/-- `renameat2(AT_FDCWD, path, AT_FDCWD, file, RENAME_NOREPLACE)`, `Diminuto/src/diminuto_lock.c:76`, and what
follows. -/
def renameLock (s : State) (p t : Nat) : State :=
  match s.dir (.temp t), s.dir .lock with
  | none, _ => note (go s p (.cleanup (some t) false)) (.lost p)
  | some _, some _ => note (go s p (.cleanup (some t) false)) (.exists_ p)
  | some i, none =>
    note (go { s with dir := upd (upd s.dir (.temp t) none) .lock (some i) } p (.cleanup (some t) true)) (.locked p)

/-- `renameat2(AT_FDCWD, path, AT_FDCWD, file, RENAME_EXCHANGE)`, `Diminuto/src/diminuto_lock.c:76`, and what
follows. -/
def renamePost (s : State) (p t : Nat) : State :=
  match s.dir (.temp t), s.dir .lock with
  | none, _ => note (go s p (.cleanup (some t) false)) (.lost p)
  | some _, none => note (go s p (.cleanup (some t) false)) (.absent p)
  | some i, some j =>
    note (go { s with dir := upd (upd s.dir (.temp t) (some j)) .lock (some i) } p (.cleanup (some t) true))
      (.postlocked p)

/-- `renameat2(AT_FDCWD, path, AT_FDCWD, file, 0)`, `Diminuto/src/diminuto_lock.c:76`, and what follows. -/
def renameFile (s : State) (p t : Nat) : State :=
  match s.dir (.temp t) with
  | none => note (go s p (.cleanup (some t) false)) (.lost p)
  | some i =>
    note (go { s with dir := upd (upd s.dir (.temp t) none) .lock (some i) } p (.cleanup (some t) true)) (.filed p)

/-- The temporary name of a process that is in a function. -/
def Pc.name : Pc → Option Nat
  | .opened _ t _ _ => some t
  | .closed _ t => some t
  | .cleanup t _ => t
  | .undefined t => some t
  | _ => none

/-- A step; `none` if the event cannot happen.  `text` is what `fprintf` makes of a PID
(`Diminuto/src/diminuto_lock.c:59`). -/
def step (text : Nat → List Byte) (s : State) : Event → Option State
  | .call p k => if s.pc p = .idle then some (go s p (.start k)) else none
  | .mkstemp p t =>
    match s.pc p with
    | .start k =>
      if s.dir (.temp t) = none then some (go (create s (.temp t)) p (.opened k t s.next (text p))) else none
    | _ => none
  | .mkstempFail p =>
    match s.pc p with
    | .start _ => some (note (go s p (.cleanup none false)) (.error p))
    | _ => none
  | .write p n =>
    match s.pc p with
    | .opened k t i rest =>
      some (go { s with data := upd s.data i (s.data i ++ rest.take n) } p (.opened k t i (rest.drop n)))
    | _ => none
  | .fclose p =>
    match s.pc p with
    | .opened k t _ [] => some (go s p (.closed k t))
    | _ => none
  | .openFail p =>
    match s.pc p with
    | .opened _ t _ _ => some (note (go s p (.cleanup (some t) false)) (.error p))
    | _ => none
  -- `fp` is not set to null after `fclose` has failed, and it is closed again (`:64-67` and `:91`).
  | .fcloseFail p =>
    match s.pc p with
    | .opened _ t _ _ => some (go s p (.undefined t))
    | _ => none
  | .rename p =>
    match s.pc p with
    | .closed .lock t => some (renameLock s p t)
    | .closed .post t => some (renamePost s p t)
    | .closed .file t => some (renameFile s p t)
    | _ => none
  | .renameFail p =>
    match s.pc p with
    | .closed _ t => some (note (go s p (.cleanup (some t) false)) (.error p))
    | _ => none
  | .unlinkTemp p =>
    match s.pc p with
    | .cleanup (some t) _ => some (go { s with dir := upd s.dir (.temp t) none } p .idle)
    | .cleanup none _ => some (go s p .idle)
    | _ => none
  -- `diminuto_lock_prelock`, `:132-158`.
  | .prelock p =>
    if s.pc p = .idle then
      if s.dir .lock = none then some (note (create s .lock) (.prelocked p)) else some (note s (.exists_ p))
    else none
  | .prelockFail p => if s.pc p = .idle then some (note s (.error p)) else none
  -- `diminuto_lock_unlock`, `:179-193`.
  | .unlock p =>
    if s.pc p = .idle then
      if s.dir .lock = none then some (note s (.absent p))
      else some (note { s with dir := upd s.dir .lock none } (.unlocked p))
    else none
  | .unlockFail p => if s.pc p = .idle then some (note s (.error p)) else none
  | .crash p =>
    match s.pc p with
    | .dead _ => none
    | c => some (go s p (.dead c.name))

/-- An execution. -/
def run (text : Nat → List Byte) (s : State) : List Event → Option State
  | [] => some s
  | e :: es => (step text s e).bind fun s => run text s es

/-- No files, no calls. -/
def start : State := ⟨fun _ => none, fun _ => [], 0, fun _ => .idle, []⟩

/-- What a reader of the lock file finds: no file, or its bytes
(`diminuto_lock_check`, `Diminuto/src/diminuto_lock.c:195-224`, up to the conversion to a number). -/
def contents (s : State) : Option (List Byte) := (s.dir .lock).map s.data

end Diminuto.Lock
