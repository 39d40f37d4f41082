import Verif.Fletcher

/-!
# Model of the Observation feature

Models `Diminuto/src/diminuto_observation.c` as a transition system: any number of observations of one path, by any number of
threads or processes, whose system calls interleave, and which can crash at any point.  The file system has names and files
(inodes) with bytes.  What the application writes goes to the buffer of the stream, and from there in any number of pieces to the file.

Simplifications: the application only appends to the stream.  The modes of files are left out.  Nobody else touches the files.
Which system call fails is a choice of the event.
-/

namespace Diminuto.Observation

/-- `sizeof(SUFFIX)`, `Diminuto/src/diminuto_observation.c:27`. -/
def SUFFIX : Nat := 8

/-- `sizeof(diminuto_path_t)`, `Diminuto/inc/com/diag/diminuto/diminuto_types.h` (`PATH_MAX` bytes). -/
def PATH : Nat := 4096

/-- The test of the length of the path in create, `Diminuto/src/diminuto_observation.c:48`. -/
def creatable (length : Nat) : Bool := ¬ length > PATH - SUFFIX - 1

/-- The name of the temporary file, from the path and the characters that `mkstemp` chooses,
`Diminuto/src/diminuto_observation.c:60-63`. -/
def temporary (path random : List Byte) : List Byte := path ++ 45#8 :: random

/-- The path that commit computes from the name of the temporary file, `Diminuto/src/diminuto_observation.c:119-129`; `none` if it fails. -/
def target (temp : List Byte) : Option (List Byte) :=
  if SUFFIX < temp.length ∧ temp.length < PATH then some (temp.take (temp.length + 1 - SUFFIX)) else none

/-- Names of files. -/
inductive Name
  /-- The path of the observation. -/
  | final
  /-- What `mkstemp` makes of it. -/
  | temp (t : Nat)
  /-- A checkpoint, which has a timestamp. -/
  | check (c : Nat)
  deriving DecidableEq

/-- Where an observation is. -/
inductive Pc
  | none
  /-- The stream is open; some bytes are in its buffer. -/
  | opened (t i : Nat) (pending : List Byte)
  /-- Commit has closed the stream, before `renameat`, `Diminuto/src/diminuto_observation.c:144`. -/
  | closed (t i : Nat)
  /-- Discard has closed the stream, before `unlink`, `Diminuto/src/diminuto_observation.c:240`. -/
  | discarding (t : Nat)
  /-- Commit or discard has failed after closing the stream, and has returned the stream, which is now not to be used. -/
  | failed (t : Nat)
  | committed
  | discarded
  /-- Create has failed; a temporary file is left or not. -/
  | refused (t : Option Nat)
  | crashed (t : Option Nat)
  deriving DecidableEq

/-- The file system, the observations, what the application has written to each, and the observations that have been committed, the
last first. -/
structure State where
  dir : Name → Option Nat
  data : Nat → List Byte
  next : Nat
  pc : Nat → Pc
  written : Nat → List Byte
  commits : List Nat

inductive Event
  | create (o t : Nat)
  /-- Create fails before there is a file. -/
  | createFail (o : Nat)
  /-- `fchmod` or `fdopen` fails, `Diminuto/src/diminuto_observation.c:74-84`. -/
  | createLeak (o t : Nat)
  | write (o : Nat) (bs : List Byte)
  /-- The C library writes the buffer to the file, or some of it. -/
  | flush (o n : Nat)
  /-- `link` in checkpoint, `Diminuto/src/diminuto_observation.c:208`. -/
  | checkpoint (o c : Nat)
  /-- Commit up to `fclose`, `Diminuto/src/diminuto_observation.c:119-131`. -/
  | commit (o : Nat)
  /-- `fclose` in commit or discard fails. -/
  | fcloseFail (o n : Nat)
  | rename (o : Nat)
  | renameFail (o : Nat)
  /-- Discard up to `fclose`, `Diminuto/src/diminuto_observation.c:227`. -/
  | discard (o : Nat)
  | unlink (o : Nat)
  | unlinkFail (o : Nat)
  | crash (o : Nat)

/-- Assignment to one element. -/
def upd {α β : Type} [DecidableEq α] (f : α → β) (i : α) (x : β) : α → β := fun j => if j = i then x else f j

/-- The temporary name of an observation. -/
def Pc.name : Pc → Option Nat
  | .opened t _ _ => some t
  | .closed t _ => some t
  | .discarding t => some t
  | .failed t => some t
  | .refused t => t
  | .crashed t => t
  | _ => Option.none

/-- `mkstemp`, `Diminuto/src/diminuto_observation.c:63`. -/
def mkstemp (s : State) (t : Nat) : State :=
  { s with dir := upd s.dir (.temp t) (some s.next), data := upd s.data s.next [], next := s.next + 1 }

/-- A step; `none` if the event cannot happen.  `length` is the length of the path. -/
def step (length : Nat) (s : State) : Event → Option State
  | .create o t =>
    if s.pc o = .none ∧ creatable length ∧ s.dir (.temp t) = none then
      some { mkstemp s t with pc := upd s.pc o (.opened t s.next []) }
    else none
  | .createFail o => if s.pc o = .none then some { s with pc := upd s.pc o (.refused none) } else none
  | .createLeak o t =>
    if s.pc o = .none ∧ creatable length ∧ s.dir (.temp t) = none then
      some { mkstemp s t with pc := upd s.pc o (.refused (some t)) }
    else none
  | .write o bs =>
    match s.pc o with
    | .opened t i pending =>
      some { s with pc := upd s.pc o (.opened t i (pending ++ bs)), written := upd s.written o (s.written o ++ bs) }
    | _ => none
  | .flush o n =>
    match s.pc o with
    | .opened t i pending =>
      some { s with
        data := upd s.data i (s.data i ++ pending.take n)
        pc := upd s.pc o (.opened t i (pending.drop n)) }
    | _ => none
  | .checkpoint o c =>
    match s.pc o with
    | .opened t _ _ =>
      if s.dir (.check c) = none then some { s with dir := upd s.dir (.check c) (s.dir (.temp t)) } else none
    | _ => none
  | .commit o =>
    match s.pc o with
    | .opened t i pending =>
      if SUFFIX < length + 7 ∧ length + 7 < PATH then
        some { s with data := upd s.data i (s.data i ++ pending), pc := upd s.pc o (.closed t i) }
      else some s
    | _ => none
  | .fcloseFail o n =>
    match s.pc o with
    | .opened t i pending =>
      some { s with data := upd s.data i (s.data i ++ pending.take n), pc := upd s.pc o (.failed t) }
    | _ => none
  | .rename o =>
    match s.pc o with
    | .closed t _ =>
      some { s with
        dir := upd (upd s.dir .final (s.dir (.temp t))) (.temp t) none
        pc := upd s.pc o .committed
        commits := o :: s.commits }
    | _ => none
  | .renameFail o =>
    match s.pc o with
    | .closed t _ => some { s with pc := upd s.pc o (.failed t) }
    | _ => none
  | .discard o =>
    match s.pc o with
    | .opened t i pending =>
      some { s with data := upd s.data i (s.data i ++ pending), pc := upd s.pc o (.discarding t) }
    | _ => none
  | .unlink o =>
    match s.pc o with
    | .discarding t => some { s with dir := upd s.dir (.temp t) none, pc := upd s.pc o .discarded }
    | _ => none
  | .unlinkFail o =>
    match s.pc o with
    | .discarding t => some { s with pc := upd s.pc o (.failed t) }
    | _ => none
  | .crash o => some { s with pc := upd s.pc o (.crashed (s.pc o).name) }

/-- An execution. -/
def run (length : Nat) (s : State) : List Event → Option State
  | [] => some s
  | e :: es => (step length s e).bind fun s => run length s es

/-- There is a file already, or not. -/
def start (old : Option (List Byte)) : State :=
  { dir := fun n => if n = .final then old.map fun _ => 0 else none
    data := fun _ => old.getD []
    next := 1
    pc := fun _ => .none
    written := fun _ => []
    commits := [] }

/-- What a reader finds that opens the path. -/
def contents (s : State) : Option (List Byte) := (s.dir .final).map s.data

end Diminuto.Observation
