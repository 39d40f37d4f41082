import Verif.Pin

/-!
# Model of the I2C feature

`Diminuto/src/diminuto_i2c.c:29-219`.  The system calls are arbitrary functions of a state.  A thread that calls one of the composite operations takes the steps: lock the mutex
`diminuto_i2c_mutex`, make the calls one by one, unlock it (`Diminuto/inc/com/diag/diminuto/diminuto_criticalsection.h:49-85`); it may be cancelled at a call, and then the cleanup function
unlocks the mutex (`Diminuto/src/diminuto_criticalsection.c`).  The results, `ssize_t`, are converted to `int`; the kernel transfers no more than 8192 bytes, so that this is left out, as are
log messages and `errno`.
-/

namespace Diminuto.I2c
open Pin (Name ascii)
open Number (decimal)

/-- `snprintf(buffer, sizeof(buffer), "/dev/i2c-%d", bus)`, where the buffer has the twelve bytes of the format, `Diminuto/src/diminuto_i2c.c:29-50`. -/
def filename (bus : Int) : Name := (ascii "/dev/i2c-" ++ (if bus < 0 then 45#8 :: decimal bus.natAbs else decimal bus.toNat)).take 11

/-- The system calls: `ioctl(fd, I2C_SLAVE, addr)`, `write(2)`, and `read(2)` with what it stores. -/
structure World (σ : Type) where
  slave : Int → BitVec 8 → σ → Int × σ
  write : Int → List Byte → σ → Int × σ
  read : Int → Nat → σ → Int × List Byte × σ

/-- What an operation returns, and what it has stored in the buffer. -/
structure Result where
  rc : Int
  got : List Byte
deriving DecidableEq, Repr

section
variable {σ : Type} (w : World σ) (fd : Int)

/-- `diminuto_i2c_use`, `Diminuto/src/diminuto_i2c.c:52-61`. -/
def use (addr : BitVec 8) (s : σ) : Int × σ := w.slave fd addr s

/-- `diminuto_i2c_read`, `Diminuto/src/diminuto_i2c.c:63-82`. -/
def read (size : Nat) (s : σ) : Result × σ :=
  match w.read fd size s with
  | (rc, l, s) => (⟨if rc < 0 then rc else if rc > size then -1 else if rc = 0 then -1 else rc, l⟩, s)

/-- `diminuto_i2c_write`, `Diminuto/src/diminuto_i2c.c:84-103`. -/
def write (data : List Byte) (s : σ) : Int × σ :=
  match w.write fd data s with
  | (rc, s) => (if rc < 0 then rc else if rc > data.length then -1 else if rc = 0 then -1 else rc, s)

/-- The part of `diminuto_i2c_get` that is in the critical section, `Diminuto/src/diminuto_i2c.c:126-132`. -/
def get (addr reg : BitVec 8) (size : Nat) (s : σ) : Result × σ :=
  match use w fd addr s with
  | (rc, s) =>
    if rc < 0 then (⟨rc, []⟩, s)
    else match write w fd [reg] s with
      | (rc, s) => if rc < 0 then (⟨rc, []⟩, s) else read w fd size s

/-- That of `diminuto_i2c_set`, `Diminuto/src/diminuto_i2c.c:145-151`. -/
def set (addr reg : BitVec 8) (data : List Byte) (s : σ) : Result × σ :=
  match use w fd addr s with
  | (rc, s) =>
    if rc < 0 then (⟨rc, []⟩, s)
    else match write w fd [reg] s with
      | (rc, s) => if rc < 0 then (⟨rc, []⟩, s) else match write w fd data s with | (rc, s) => (⟨rc, []⟩, s)

/-- That of `diminuto_i2c_send`, `Diminuto/src/diminuto_i2c.c:164-168`. -/
def send (addr : BitVec 8) (data : List Byte) (s : σ) : Result × σ :=
  match use w fd addr s with
  | (rc, s) => if rc < 0 then (⟨rc, []⟩, s) else match write w fd data s with | (rc, s) => (⟨rc, []⟩, s)

/-- That of `diminuto_i2c_get_set`, `Diminuto/src/diminuto_i2c.c:185-193`. -/
def getSet (addr reg : BitVec 8) (data : List Byte) (s : σ) : Result × σ :=
  match use w fd addr s with
  | (rc, s) =>
    if rc < 0 then (⟨-1, []⟩, s)
    else match write w fd [reg] s with
      | (rc, s) =>
        if rc < 0 then (⟨-1, []⟩, s)
        else match read w fd data.length s with
          | (r, s) => if r.rc < 0 then (r, s) else match write w fd data s with | (rc, s) => (⟨rc, r.got⟩, s)

/-- That of `diminuto_i2c_set_get`, `Diminuto/src/diminuto_i2c.c:206-214`. -/
def setGet (addr reg : BitVec 8) (data : List Byte) (s : σ) : Result × σ :=
  match use w fd addr s with
  | (rc, s) =>
    if rc < 0 then (⟨-1, []⟩, s)
    else match write w fd [reg] s with
      | (rc, s) =>
        if rc < 0 then (⟨-1, []⟩, s)
        else match write w fd data s with
          | (rc, s) => if rc < 0 then (⟨rc, []⟩, s) else read w fd data.length s

end

/-- A call that is made in a critical section. -/
inductive Call where
  | use (addr : BitVec 8)
  | write (data : List Byte)
  | read (size : Nat)
deriving DecidableEq, Repr

/-- A composite operation, with its descriptor, `Diminuto/inc/com/diag/diminuto/diminuto_i2c.h:86-134`. -/
inductive Op where
  | get (fd : Int) (addr reg : BitVec 8) (size : Nat)
  | set (fd : Int) (addr reg : BitVec 8) (data : List Byte)
  | send (fd : Int) (addr : BitVec 8) (data : List Byte)
  | getSet (fd : Int) (addr reg : BitVec 8) (data : List Byte)
  | setGet (fd : Int) (addr reg : BitVec 8) (data : List Byte)
deriving DecidableEq, Repr

/-- The descriptor of an operation, the first parameter in `Diminuto/inc/com/diag/diminuto/diminuto_i2c.h:86-134`. -/
def Op.fd : Op → Int
  | .get fd _ _ _ => fd
  | .set fd _ _ _ => fd
  | .send fd _ _ => fd
  | .getSet fd _ _ _ => fd
  | .setGet fd _ _ _ => fd

/-- The calls of an operation, in order; after one that fails there is no other (`Diminuto/src/diminuto_i2c.c:120-219`). -/
def Op.calls : Op → List Call
  | .get _ addr reg size => [.use addr, .write [reg], .read size]
  | .set _ addr reg data => [.use addr, .write [reg], .write data]
  | .send _ addr data => [.use addr, .write data]
  | .getSet _ addr reg data => [.use addr, .write [reg], .read data.length, .write data]
  | .setGet _ addr reg data => [.use addr, .write [reg], .write data, .read data.length]

/-- A thread: the operations it will call, the one that is in progress with its calls to come and the result so far, and the results of those that have returned. -/
structure Thread where
  todo : List Op
  running : Option (Op × List Call × Result)
  results : List Result
  cancelled : Bool

/-- The process: its threads, the one that holds the mutex, and the state of the rest of the world. -/
structure Sys (σ : Type) where
  threads : Nat → Thread
  holder : Option Nat
  world : σ

/-- The system with another thread. -/
def Sys.put {σ : Type} (x : Sys σ) (t : Nat) (th : Thread) (holder : Option Nat) (world : σ) : Sys σ :=
  ⟨fun u => if u = t then th else x.threads u, holder, world⟩

/-- What a call does to the result so far: a failed one determines it, another one adds what it has read; `Diminuto/src/diminuto_i2c.c:120-219`. -/
def perform {σ : Type} (w : World σ) (fd : Int) (c : Call) (r : Result) (s : σ) : Result × σ :=
  match c with
  | .use addr => match use w fd addr s with | (rc, s) => (⟨rc, r.got⟩, s)
  | .write data => match write w fd data s with | (rc, s) => (⟨rc, r.got⟩, s)
  | .read size => match read w fd size s with | (q, s) => (⟨q.rc, r.got ++ q.got⟩, s)

/-- A whole operation, without any other thread; `Diminuto/src/diminuto_i2c.c:120-219`. -/
def whole {σ : Type} (w : World σ) : Op → σ → Result × σ
  | .get fd addr reg size => get w fd addr reg size
  | .set fd addr reg data => set w fd addr reg data
  | .send fd addr data => send w fd addr data
  | .getSet fd addr reg data => getSet w fd addr reg data
  | .setGet fd addr reg data => setGet w fd addr reg data

/-- A step of a thread: `Diminuto/src/diminuto_i2c.c:120-219` with `Diminuto/inc/com/diag/diminuto/diminuto_criticalsection.h:49-85`.  Other steps of the threads are left out. -/
inductive Step {σ : Type} (w : World σ) (x : Sys σ) : Sys σ → Prop where
  /-- The mutex is locked; otherwise the thread waits. -/
  | lock (t : Nat) (op : Op) (rest : List Op) (results : List Result) (h : x.threads t = ⟨op :: rest, none, results, false⟩) (hh : x.holder = none) :
      Step w x (x.put t ⟨rest, some (op, op.calls, ⟨-1, []⟩), results, false⟩ (some t) x.world)
  /-- One of the calls is made. -/
  | call (t : Nat) (todo : List Op) (op : Op) (c : Call) (cs : List Call) (r : Result) (results : List Result) (h : x.threads t = ⟨todo, some (op, c :: cs, r), results, false⟩) :
      Step w x (x.put t ⟨todo, some (op, (if (perform w op.fd c r x.world).1.rc < 0 then [] else cs), (perform w op.fd c r x.world).1), results, false⟩ x.holder (perform w op.fd c r x.world).2)
  /-- The mutex is unlocked and the operation returns. -/
  | unlock (t : Nat) (todo : List Op) (op : Op) (r : Result) (results : List Result) (h : x.threads t = ⟨todo, some (op, [], r), results, false⟩) :
      Step w x (x.put t ⟨todo, none, results ++ [r], false⟩ none x.world)
  /-- The thread is cancelled at one of the calls; the cleanup function unlocks the mutex. -/
  | cancel (t : Nat) (todo : List Op) (op : Op) (c : Call) (cs : List Call) (r : Result) (results : List Result) (h : x.threads t = ⟨todo, some (op, c :: cs, r), results, false⟩) :
      Step w x (x.put t ⟨todo, none, results, true⟩ none x.world)

end Diminuto.I2c
