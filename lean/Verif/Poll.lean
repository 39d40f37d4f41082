import Verif.Mux

/-!
# Model of the poller

`Diminuto/src/diminuto_poll.c`, with the inline functions of `Diminuto/inc/com/diag/diminuto/diminuto_poll.h`.  The sets of the multiplexer in
the poller are those of `Verif/Mux.lean`.  The array of `struct pollfd` is a list, whose elements are `none` as long as they have not been initialized;
to read such an element, or to go beyond the end of the array, or to go on without memory, is undefined behaviour, and is `none`.
Signals, messages and the duration of a timeout are not modelled.
-/

namespace Diminuto.Poll

open Diminuto.Mux (Mux Kind FdSet Fds)

/-- The events `POLLIN`, `POLLOUT` and `POLLPRI`, as at `Diminuto/src/diminuto_poll.c:128-132`. -/
structure Ev where
  inp : Bool
  out : Bool
  pri : Bool
deriving DecidableEq

/-- The conditions of a descriptor.  `err` is whether any of `POLLERR`, `POLLHUP` and `POLLNVAL` holds, which `ppoll(2)` reports although
nobody asks for it. -/
structure Cond where
  inp : Bool
  out : Bool
  pri : Bool
  err : Bool
deriving DecidableEq

/-- `struct pollfd`, as at `Diminuto/src/diminuto_poll.c:123-126`. -/
structure Entry where
  fd : Int
  events : Ev
  revents : Cond

/-- The empty element, `Diminuto/src/diminuto_poll.c:124-126`. -/
def blank : Entry := ⟨-1, ⟨false, false, false⟩, ⟨false, false, false, false⟩⟩

/-- `diminuto_poll_t`, `Diminuto/inc/com/diag/diminuto/diminuto_poll.h:58-65`.  `nfds` is the length of the array. -/
structure Poll where
  arr : List (Option Entry)
  mux : Mux
  min : Int
  max : Int
  refresh : Bool

/-- `diminuto_poll_init`, `Diminuto/src/diminuto_poll.c:31-40`. -/
def init : Poll := ⟨[], Mux.init, Mux.MOSTPOSITIVE, Mux.MOSTNEGATIVE, false⟩

/-- `poll_bounds`, `Diminuto/src/diminuto_poll.c:53-57`. -/
def bounds (b : Int × Int) (s : FdSet) : Int × Int := (if s.min < b.1 then s.min else b.1, if s.max > b.2 then s.max else b.2)

/-- `Diminuto/src/diminuto_poll.c:101-108`. -/
def allBounds (m : Mux) : Int × Int :=
  bounds (bounds (bounds (bounds (bounds (Mux.MOSTPOSITIVE, Mux.MOSTNEGATIVE) (m.set .read)) (m.set .write)) (m.set .accept)) (m.set .urgent))
    (m.set .interrupt)

/-- The masks, `Diminuto/src/diminuto_poll.c:128-132` and `:147-151`. -/
def mask : Kind → Ev
  | .read => ⟨true, false, false⟩
  | .write => ⟨false, true, false⟩
  | .accept => ⟨true, false, false⟩
  | .urgent => ⟨false, false, true⟩
  | .interrupt => ⟨false, false, true⟩

/-- The element of the array, as at `Diminuto/src/diminuto_poll.c:66`. -/
def entry (arr : List (Option Entry)) (i : Int) : Option Entry := if 0 ≤ i then (arr[i.toNat]?).bind id else none

/-- `|=`, `Diminuto/src/diminuto_poll.c:68`. -/
def Ev.or (a b : Ev) : Ev := ⟨a.inp || b.inp, a.out || b.out, a.pri || b.pri⟩

/-- `revents & mask`, `Diminuto/src/diminuto_poll.c:83`. -/
def meets (c : Cond) (a : Ev) : Bool := (c.inp && a.inp) || (c.out && a.out) || (c.pri && a.pri)

/-- The loop of `poll_before`, `Diminuto/src/diminuto_poll.c:63-70`.  The first argument is the number of iterations to go. -/
def beforeLoop (lo : Int) (s : FdSet) (a : Ev) : Nat → Int → List (Option Entry) → Option (List (Option Entry))
  | 0, _, arr => some arr
  | n + 1, fd, arr =>
    (Mux.isset fd s.active).bind fun b =>
    if b then
      (entry arr (fd - lo)).bind fun e => beforeLoop lo s a n (fd + 1) (arr.set (fd - lo).toNat (some { e with fd := fd, events := e.events.or a }))
    else beforeLoop lo s a n (fd + 1) arr

/-- `poll_before`, `Diminuto/src/diminuto_poll.c:59-72`. -/
def before (lo : Int) (s : FdSet) (a : Ev) (arr : List (Option Entry)) : Option (List (Option Entry)) :=
  if s.max ≥ 0 then beforeLoop lo s a (s.max + 1 - s.min).toNat s.min arr else some arr

/-- `Diminuto/src/diminuto_poll.c:128-132`. -/
def allBefore (lo : Int) (m : Mux) (arr : List (Option Entry)) : Option (List (Option Entry)) :=
  (before lo (m.set .read) (mask .read) arr).bind fun arr =>
  (before lo (m.set .write) (mask .write) arr).bind fun arr =>
  (before lo (m.set .accept) (mask .accept) arr).bind fun arr =>
  (before lo (m.set .urgent) (mask .urgent) arr).bind fun arr =>
  before lo (m.set .interrupt) (mask .interrupt) arr

/-- What `ppoll(2)` reports for an element, `Diminuto/src/diminuto_poll.c:144`: the conditions that are asked for, and the errors; nothing if
the descriptor is negative. -/
def report (c : Nat → Cond) (e : Entry) : Cond :=
  if e.fd < 0 then ⟨false, false, false, false⟩
  else ⟨e.events.inp && (c e.fd.toNat).inp, e.events.out && (c e.fd.toNat).out, e.events.pri && (c e.fd.toNat).pri, (c e.fd.toNat).err⟩

/-- Whether anything is reported. -/
def Cond.any (c : Cond) : Bool := c.inp || c.out || c.pri || c.err

/-- `ppoll(2)`, `Diminuto/src/diminuto_poll.c:144`, of the first so many elements: the array afterwards and the number of elements for which
something is reported.  The function is the conditions of the descriptors at the time at which `ppoll(2)` returns. -/
def ppoll (c : Nat → Cond) : Nat → List (Option Entry) → Option (List (Option Entry) × Nat)
  | 0, arr => some (arr, 0)
  | _ + 1, [] => none
  | _ + 1, none :: _ => none
  | n + 1, some e :: arr =>
    (ppoll c n arr).bind fun r => some (some { e with revents := report c e } :: r.1, if (report c e).any then r.2 + 1 else r.2)

/-- The loop of `poll_after`, `Diminuto/src/diminuto_poll.c:78-88`. -/
def afterLoop (lo : Int) (arr : List (Option Entry)) (a : Ev) : Nat → Int → Fds → Option Fds
  | 0, _, f => some f
  | n + 1, fd, f =>
    (entry arr (fd - lo)).bind fun e =>
    (if e.fd < 0 then some f
     else if meets e.revents a = false then Mux.assign fd f false
     else Mux.assign fd f true).bind fun f =>
    afterLoop lo arr a n (fd + 1) f

/-- `poll_after`, `Diminuto/src/diminuto_poll.c:74-90`, and `diminuto_mux_set_reset`, `:152-156`. -/
def after (lo : Int) (arr : List (Option Entry)) (k : Kind) (m : Mux) : Option Mux :=
  let s := m.set k
  (if s.max ≥ 0 then afterLoop lo arr (mask k) (s.max + 1 - s.min).toNat s.min s.ready else some s.ready).bind fun f =>
  some (Mux.put m k (Mux.reset { s with ready := f }))

/-- `Diminuto/src/diminuto_poll.c:147-156`. -/
def allAfter (lo : Int) (arr : List (Option Entry)) (m : Mux) : Option Mux :=
  (after lo arr .read m).bind fun m =>
  (after lo arr .write m).bind fun m =>
  (after lo arr .accept m).bind fun m =>
  (after lo arr .urgent m).bind fun m =>
  after lo arr .interrupt m

/-- What `ppoll(2)` does. -/
inductive Result where
  | polled (c : Nat → Cond)
  | error

/-- The number of elements that are needed, `Diminuto/src/diminuto_poll.c:110`. -/
def count (b : Int × Int) : Nat := if b.1 ≤ b.2 then (b.2 - b.1 + 1).toNat else 0

/-- The array when it is passed to `ppoll(2)`, and whether it must still be made, `Diminuto/src/diminuto_poll.c:112-134`.  `alloc` is whether there is
memory for a larger array. -/
def prepare (p : Poll) (alloc : Bool) : Option (List (Option Entry) × Bool) :=
  let b := allBounds p.mux
  let n := count b
  (if n > p.arr.length then
    if alloc then some (p.arr ++ List.replicate (n - p.arr.length) none) else none
   else some p.arr).bind fun arr =>
  if n = 0 then some (arr, p.refresh)
  else if p.refresh = false then some (arr, p.refresh)
  else (allBefore b.1 p.mux (arr.map fun _ => some blank)).bind fun arr => some (arr, false)

/-- `diminuto_poll_wait_generic`, `Diminuto/src/diminuto_poll.c:92-168`.  `forever` is whether the timeout is negative. -/
def wait (p : Poll) (forever alloc : Bool) (e : Result) : Option (Poll × Int) :=
  let b := allBounds p.mux
  let n := count b
  (prepare p alloc).bind fun q =>
  if n > 0 ∨ forever = false then
    match e with
    | .error => some (⟨q.1, p.mux, b.1, b.2, q.2⟩, -1)
    | .polled c =>
      (ppoll c n q.1).bind fun r =>
      if r.2 > 0 then (allAfter b.1 r.1 p.mux).bind fun m => some (⟨r.1, m, b.1, b.2, q.2⟩, r.2)
      else some (⟨r.1, p.mux, b.1, b.2, q.2⟩, 0)
  else some (⟨q.1, p.mux, b.1, b.2, q.2⟩, 0)

/-- The functions of the poller with their arguments, and the results of system calls. -/
inductive Op where
  | register (k : Kind) (fd : Int)
  | unregister (k : Kind) (fd : Int)
  | close (fd : Int) (ok : Bool)
  | wait (forever alloc : Bool) (e : Result)
  | ready (k : Kind)

/-- A call, `Diminuto/inc/com/diag/diminuto/diminuto_poll.h:92-153`, `:172-230` and `:280-333`, and `Diminuto/src/diminuto_poll.c:92-168`. -/
def step (p : Poll) : Op → Option (Poll × Int)
  | .register k fd =>
    (Mux.register p.mux k fd).bind fun r => some ({ p with mux := r.1, refresh := if r.2 ≥ 0 then true else p.refresh }, r.2)
  | .unregister k fd =>
    (Mux.unregister p.mux k fd).bind fun r => some ({ p with mux := r.1, refresh := if r.2 ≥ 0 then true else p.refresh }, r.2)
  | .close fd ok => (Mux.close p.mux fd ok).bind fun r => some ({ p with mux := r.1 }, r.2)
  | .wait forever alloc e => wait p forever alloc e
  | .ready k => (Mux.setReady (p.mux.set k)).bind fun r => some ({ p with mux := Mux.put p.mux k r.1 }, r.2)

/-- A sequence of calls, and their return values. -/
def run (p : Poll) : List Op → Option (Poll × List Int)
  | [] => some (p, [])
  | op :: ops => (step p op).bind fun r => (run r.1 ops).bind fun q => some (q.1, r.2 :: q.2)

end Diminuto.Poll
