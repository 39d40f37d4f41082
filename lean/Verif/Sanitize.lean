import Verif.Fletcher

/-!
# Model of how a daemon changes its context
-/

namespace Diminuto.Sanitize

/-- How a file is opened. -/
inductive Access where
  | read | write | both
deriving DecidableEq

/-- What a descriptor refers to. -/
structure Open where
  file : Nat
  access : Access
deriving DecidableEq

/-- What is done on a signal. -/
inductive Action where
  | default | ignore | handler (n : Nat)
deriving DecidableEq

/-- A process: its descriptors, of which there may be as many as the limit, its standard streams, each of which has a descriptor or is NULL, and the rest of its context. -/
structure Process where
  files : Nat → Option Open
  limit : Nat
  stdin : Option Nat
  stdout : Option Nat
  stderr : Option Nat
  pid : Nat
  pgid : Nat
  sid : Nat
  umask : Nat
  cwd : String
  action : Nat → Action

/-- One descriptor is changed. -/
def put (t : Nat → Option Open) (n : Nat) (o : Option Open) : Nat → Option Open := fun m => if m = n then o else t m

/-- The descriptor that `open(2)` returns: the lowest that is not in use. -/
def lowest (limit : Nat) (t : Nat → Option Open) : Option Nat := (List.range limit).find? fun n => (t n).isNone

/-- `diminuto_daemon_redirect`, `Diminuto/src/diminuto_daemon.c:168-212`, with the file that is named by the path, if it can be opened.  The result `none` is undefined behaviour: a stream that has another
descriptor is closed by `fclose(3)` at `:194` and after that it is given to `fileno(3)` at `:204`.  The mode is not made use of, and the stream is always opened for reading, at `:206`, which
`fdopen(3)` refuses for a descriptor that is not. -/
def redirect (file : Option Nat) (number : Nat) (access : Access) (stream : Option Nat) (limit : Nat) (t : Nat → Option Open) : Option ((Nat → Option Open) × Option Nat) :=
  match file, lowest limit t with
  | some file, some fd =>
    let t := put t fd (some ⟨file, access⟩)
    let t := if fd = number then t else if number < limit then put (put t number (some ⟨file, access⟩)) fd none else t
    match stream with
    | some n => if n = number then some (t, stream) else none
    | none =>
      match t number with
      | none => some (t, none)
      | some o => some (t, if o.access = .write then none else some number)
  | _, _ => some (t, stream)

/-- The loop that closes the descriptors, `Diminuto/src/diminuto_daemon.c:275-293`.  The result `none` is undefined behaviour: `fileno(3)` of a stream that is NULL. -/
def closing (stdin stdout stderr : Option Nat) : List Nat → (Nat → Option Open) → Option (Nat → Option Open)
  | [], t => some t
  | fd :: rest, t =>
    if fd = 0 ∨ fd = 1 ∨ fd = 2 then closing stdin stdout stderr rest t
    else
      match stdin, stdout, stderr with
      | some i, some o, some e => if fd = i ∨ fd = o ∨ fd = e then closing stdin stdout stderr rest t else closing stdin stdout stderr rest (put t fd none)
      | _, _, _ => none

/-- The signals, `Diminuto/src/diminuto_daemon.c:227-239`: SIGALRM 14, SIGCHLD 17, SIGTSTP 20, SIGTTOU 22, SIGTTIN 21, SIGHUP 1, and SIGTERM 15. -/
def signals (a : Nat → Action) : Nat → Action := fun n =>
  if n = 14 then .ignore else if n = 17 then .default else if n = 20 then .ignore else if n = 22 then .ignore else if n = 21 then .ignore else if n = 1 then .ignore else if n = 15 then .default else a n

/-- `diminuto_daemon_sanitize`, `Diminuto/src/diminuto_daemon.c:214-300`.  The path is NULL, or it is one that cannot be opened or the number of a file that can; `fds` is the result of
`diminuto_fd_count`.  The socket of the system log, which is closed before the loop and opened again after it, is left out, and so are failures of `sigaction(2)` and `chdir(2)`. -/
def sanitize (path : Option (Option Nat)) (fds : Nat) (p : Process) : Option Process := do
  let p := { p with sid := if p.pgid = p.pid then p.sid else p.pid, pgid := p.pid }
  let p := { p with action := signals p.action, umask := 0, cwd := "/" }
  let p ← match path with
    | none => some p
    | some file => do
      let (t, i) ← redirect file 0 .read p.stdin p.limit p.files
      let (t, o) ← redirect file 1 .write p.stdout p.limit t
      let (t, e) ← redirect file 2 .write p.stderr p.limit t
      some { p with files := t, stdin := i, stdout := o, stderr := e }
  let t ← closing p.stdin p.stdout p.stderr (List.range fds) p.files
  some { p with files := t }

end Diminuto.Sanitize
