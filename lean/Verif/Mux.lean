import Verif.Fletcher

/-!
# Model of the multiplexer

`Diminuto/src/diminuto_mux.c`, with the inline functions of `Diminuto/src/diminuto_mux.h`.  A file descriptor is an `int`, modelled as an integer since
only values from -1 to `FD_SETSIZE` and the limits of `int` occur.  An `fd_set` is a function from descriptors to bits; `FD_SET`,
`FD_CLR` and `FD_ISSET` of a descriptor out of range, which is undefined behaviour, is `none`.  Signals and messages are not modelled.
-/

namespace Diminuto.Mux

/-- `FD_SETSIZE`, used at `Diminuto/src/diminuto_mux.c:49`. -/
def FD_SETSIZE : Nat := 1024

/-- `DIMINUTO_MUX_MOSTPOSITIVE`, `Diminuto/src/diminuto_mux.h:36`. -/
def MOSTPOSITIVE : Int := 2147483647

/-- `DIMINUTO_MUX_MOSTNEGATIVE`, `Diminuto/src/diminuto_mux.h:41`. -/
def MOSTNEGATIVE : Int := -2147483648

/-- `fd_set`, as in `Diminuto/inc/com/diag/diminuto/diminuto_mux.h:70`. -/
abbrev Fds := Nat → Bool

/-- `FD_ISSET(3)`, as at `Diminuto/src/diminuto_mux.c:52`. -/
def isset (fd : Int) (f : Fds) : Option Bool := if 0 ≤ fd ∧ fd < FD_SETSIZE then some (f fd.toNat) else none

/-- `FD_SET(3)` and `FD_CLR(3)`, as at `Diminuto/src/diminuto_mux.c:56-57`. -/
def assign (fd : Int) (f : Fds) (b : Bool) : Option Fds :=
  if 0 ≤ fd ∧ fd < FD_SETSIZE then some (fun i => if i = fd.toNat then b else f i) else none

/-- `diminuto_mux_set_t`, `Diminuto/inc/com/diag/diminuto/diminuto_mux.h:69-75`. -/
structure FdSet where
  active : Fds
  ready : Fds
  min : Int
  max : Int
  next : Int

/-- `diminuto_mux_set_init`, `Diminuto/src/diminuto_mux.h:48-57`. -/
def setInit : FdSet := ⟨fun _ => false, fun _ => false, MOSTPOSITIVE, MOSTNEGATIVE, -1⟩

/-- The sets of a multiplexer, `Diminuto/inc/com/diag/diminuto/diminuto_mux.h:83-87`. -/
inductive Kind where
  | read
  | write
  | accept
  | urgent
  | interrupt
deriving DecidableEq

/-- `diminuto_mux_t`, `Diminuto/inc/com/diag/diminuto/diminuto_mux.h:80-89`. -/
structure Mux where
  readOrAccept : Fds
  urgentOrInterrupt : Fds
  set : Kind → FdSet

/-- `diminuto_mux_init`, `Diminuto/src/diminuto_mux.c:22-43`. -/
def init : Mux := ⟨fun _ => false, fun _ => false, fun _ => setInit⟩

/-- Assignment to one of the sets. -/
def put (m : Mux) (k : Kind) (s : FdSet) : Mux := { m with set := fun j => if j = k then s else m.set j }

/-- The assignment to the union that a set belongs to, `Diminuto/src/diminuto_mux.c:58-61` and `:151-154`. -/
def union (m : Mux) (k : Kind) (fd : Int) (b : Bool) : Option Mux :=
  match k with
  | .read => (assign fd m.readOrAccept b).bind fun f => some { m with readOrAccept := f }
  | .accept => (assign fd m.readOrAccept b).bind fun f => some { m with readOrAccept := f }
  | .urgent => (assign fd m.urgentOrInterrupt b).bind fun f => some { m with urgentOrInterrupt := f }
  | .interrupt => (assign fd m.urgentOrInterrupt b).bind fun f => some { m with urgentOrInterrupt := f }
  | .write => some m

/-- `diminuto_mux_register`, `Diminuto/src/diminuto_mux.c:45-68`. -/
def register (m : Mux) (k : Kind) (fd : Int) : Option (Mux × Int) :=
  let s := m.set k
  if ¬ (0 ≤ fd ∧ fd < FD_SETSIZE) then some (m, -1)
  else
    (isset fd s.active).bind fun there =>
    if there then some (m, -1)
    else
      (assign fd s.active true).bind fun active =>
      (assign fd s.ready false).bind fun ready =>
      (union m k fd true).bind fun m =>
      let min := if fd < s.min then fd else s.min
      let max := if fd > s.max then fd else s.max
      some (put m k { s with active := active, ready := ready, min := min, max := max }, fd)

/-- The loop of `diminuto_mux_set_bound`, `Diminuto/src/diminuto_mux.c:103-108`.  The first argument is the number of iterations to go. -/
def boundLoop (s : FdSet) : Nat → Int → Int → Int → Option (Int × Int)
  | 0, _, min, max => some (min, max)
  | n + 1, fd, min, max =>
    (isset fd s.active).bind fun b =>
    if b then boundLoop s n (fd + 1) (if fd < min then fd else min) (if fd > max then fd else max)
    else boundLoop s n (fd + 1) min max

/-- `diminuto_mux_set_bound`, `Diminuto/src/diminuto_mux.c:95-111`. -/
def bound (s : FdSet) : Option FdSet :=
  (boundLoop s (s.max + 1 - s.min).toNat s.min MOSTPOSITIVE MOSTNEGATIVE).bind fun r => some { s with min := r.1, max := r.2 }

/-- `diminuto_mux_set_normalize`, `Diminuto/src/diminuto_mux.c:113-126`. -/
def normalize (s : FdSet) : FdSet :=
  if s.next < 0 then s
  else if s.max < 0 then { s with next := -1 }
  else if s.next < s.min then { s with next := s.min }
  else if s.next > s.max then { s with next := s.min }
  else s

/-- `diminuto_mux_unregister`, `Diminuto/src/diminuto_mux.c:128-166`. -/
def unregister (m : Mux) (k : Kind) (fd : Int) : Option (Mux × Int) :=
  let s := m.set k
  if ¬ (0 ≤ fd ∧ fd < FD_SETSIZE) then some (m, -1)
  else
    (isset fd s.active).bind fun there =>
    if there then
      (assign fd s.active false).bind fun active =>
      (assign fd s.ready false).bind fun ready =>
      (union m k fd false).bind fun m =>
      (bound { s with active := active, ready := ready }).bind fun s =>
      some (put m k (normalize s), fd)
    else some (m, -1)

/-- `diminuto_mux_close`, `Diminuto/src/diminuto_mux.c:368-403`.  `ok` is whether `close(2)` succeeds. -/
def close (m : Mux) (fd : Int) (ok : Bool) : Option (Mux × Int) :=
  (unregister m .accept fd).bind fun a =>
  (unregister a.1 .read fd).bind fun r =>
  (unregister r.1 .write fd).bind fun w =>
  (unregister w.1 .urgent fd).bind fun u =>
  (unregister u.1 .interrupt fd).bind fun i =>
  let rc := if a.2 < 0 ∧ r.2 < 0 ∧ w.2 < 0 ∧ u.2 < 0 ∧ i.2 < 0 then -2 else 0
  some (i.1, if ok then rc else -1)

/-- `diminuto_mux_set_census`, `Diminuto/src/diminuto_mux.h:85-88`. -/
def census (s : FdSet) (nfds : Int) : Int := if nfds ≤ s.max then s.max + 1 else nfds

/-- The number of descriptors that `pselect(2)` examines, `Diminuto/src/diminuto_mux.c:240-244`. -/
def nfds (m : Mux) : Int :=
  census (m.set .interrupt) (census (m.set .urgent) (census (m.set .accept) (census (m.set .write) (census (m.set .read) 0))))

/-- `diminuto_mux_set_reset`, `Diminuto/src/diminuto_mux.h:96-105`. -/
def reset (s : FdSet) : FdSet :=
  if s.next ≥ 0 then s else if s.max < 0 then s else { s with next := s.min }

/-- What `pselect(2)` does, `Diminuto/src/diminuto_mux.c:279`: of the descriptors asked for and below `nfds`, those which the functions select are
ready; or no descriptor is ready, and the sets are cleared; or it fails, and the sets stay. -/
inductive Select where
  | ready (r w x : Fds)
  | timeout
  | error

/-- `diminuto_mux_wait_generic`, `Diminuto/src/diminuto_mux.c:231-310`.  `poll` is whether the timeout is zero.  Returns the sign of the return value. -/
def wait (m : Mux) (poll : Bool) (e : Select) : Mux × Int :=
  if nfds m > 0 ∨ poll = false then
    match e with
    | .ready r w x =>
      let roa := fun i => m.readOrAccept i && decide ((i : Int) < nfds m) && r i
      let wr := fun i => (m.set .write).active i && decide ((i : Int) < nfds m) && w i
      let uoi := fun i => m.urgentOrInterrupt i && decide ((i : Int) < nfds m) && x i
      ({ m with set := fun k =>
          match k with
          | .read => reset { m.set .read with ready := roa }
          | .write => reset { m.set .write with ready := wr }
          | .accept => reset { m.set .accept with ready := roa }
          | .urgent => reset { m.set .urgent with ready := uoi }
          | .interrupt => reset { m.set .interrupt with ready := uoi } }, 1)
    | .timeout => (put m .write { m.set .write with ready := fun _ => false }, 0)
    | .error => (put m .write { m.set .write with ready := (m.set .write).active }, -1)
  else (m, 0)

/-- The loop of `diminuto_mux_set_ready`, `Diminuto/src/diminuto_mux.c:326-334`; `none` if it does not end within so many iterations. -/
def scan (wrapped : Int) : Nat → FdSet → Option (FdSet × Int)
  | 0, _ => none
  | n + 1, s =>
    (isset s.next s.ready).bind fun r =>
    (if r then
      (isset s.next s.active).bind fun a =>
      let fd := if a then s.next else -1
      (assign fd s.ready false).bind fun ready => some ({ s with ready := ready }, fd)
    else some (s, -1)).bind fun q =>
    let s := { q.1 with next := if q.1.next < q.1.max then q.1.next + 1 else q.1.min }
    if q.2 < 0 ∧ s.next ≠ wrapped then scan wrapped n s else some (s, q.2)

/-- `diminuto_mux_set_ready`, `Diminuto/src/diminuto_mux.c:312-341`.  The loop goes through no more than all descriptors, or else
does not terminate. -/
def setReady (s : FdSet) : Option (FdSet × Int) :=
  if s.next ≥ 0 then
    (scan s.next (FD_SETSIZE + 1) s).bind fun r => if r.2 < 0 then some ({ r.1 with next := -1 }, r.2) else some r
  else some (s, -1)

/-- The functions of the multiplexer with their arguments, and the results of system calls. -/
inductive Op where
  | register (k : Kind) (fd : Int)
  | unregister (k : Kind) (fd : Int)
  | close (fd : Int) (ok : Bool)
  | wait (poll : Bool) (e : Select)
  | ready (k : Kind)

/-- A call, `Diminuto/src/diminuto_mux.c:70-93`, `:168-191`, `:231-403`: the multiplexer afterwards and the return value. -/
def step (m : Mux) : Op → Option (Mux × Int)
  | .register k fd => register m k fd
  | .unregister k fd => unregister m k fd
  | .close fd ok => close m fd ok
  | .wait poll e => some (wait m poll e)
  | .ready k => (setReady (m.set k)).bind fun r => some (put m k r.1, r.2)

/-- A sequence of calls, and their return values. -/
def run (m : Mux) : List Op → Option (Mux × List Int)
  | [] => some (m, [])
  | op :: ops => (step m op).bind fun r => (run r.1 ops).bind fun q => some (q.1, r.2 :: q.2)

end Diminuto.Mux
