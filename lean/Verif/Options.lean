import Verif.Fletcher

/-!
# Model of the options of sockets

`Diminuto/src/diminuto_ipc.c:129-170` and `:216-281`.  The descriptor is a number that is not negative; `fcntl(2)`, `setsockopt(2)` and `ioctl(2)` are arbitrary functions of a
state.  Log messages are left out.
-/

namespace Diminuto.Options

/-- What `setsockopt(2)` does: success, `EPERM` or another error. -/
inductive Answer where
  | ok | perm | other
deriving DecidableEq

/-- `enum` of the socket options that have their own function: `SO_SNDBUF`, `SO_RCVBUF` and others by number. -/
inductive Name where
  | sndbuf | rcvbuf | other (level option : Int)
deriving DecidableEq

/-- `diminuto_maximumof(int)`, `Diminuto/src/diminuto_ipc.c:218`, `:234` and `:251`. -/
def MAXIMUM : Int := 2147483647

/-- `diminuto_frequency()`, `Diminuto/inc/com/diag/diminuto/diminuto_frequency.h:70`. -/
def FREQUENCY : BitVec 64 := 1000000000#64

section
variable {σ : Type}

/-- `diminuto_ipc_set_status`, `Diminuto/src/diminuto_ipc.c:129-144`; `fcntl(F_GETFL)` returns -1 or the flags, which become a `long`. -/
def setStatus (getfl : Int → σ → BitVec 32) (setfl : Int → BitVec 64 → σ → Int × σ) (fd : Int) (enable : Bool) (mask : BitVec 64) (s : σ) : Int × σ :=
  let flags : BitVec 64 := (getfl fd s).signExtend 64
  if flags = -1 then (-6, s)
  else
    let (rc, s) := setfl fd (if enable then flags ||| mask else flags &&& ~~~mask) s
    if rc < 0 then (-7, s) else (fd, s)

/-- `diminuto_ipc_set_socket`, `Diminuto/src/diminuto_ipc.c:146-159`. -/
def setSocket (setsockopt : Int → Name → Int → σ → Answer × σ) (fd : Int) (name : Name) (value : Int) (s : σ) : Int × σ :=
  match setsockopt fd name value s with
  | (.ok, s) => (fd, s)
  | (.perm, s) => (-8, s)
  | (.other, s) => (-9, s)

/-- `diminuto_ipc_get_control`, `Diminuto/src/diminuto_ipc.c:161-171`. -/
def getControl (ioctl : Int → σ → Option Int × σ) (fd : Int) (s : σ) : Int × σ :=
  match ioctl fd s with
  | (none, s) => (-1, s)
  | (some v, s) => (v, s)

/-- `diminuto_ipc_set_send`, `Diminuto/src/diminuto_ipc.c:216-230`. -/
def setSend (setsockopt : Int → Name → Int → σ → Answer × σ) (fd : Int) (size : Int) (s : σ) : Int × σ :=
  if size < 0 then (fd, s)
  else if size > MAXIMUM then setSocket setsockopt fd .sndbuf MAXIMUM s
  else setSocket setsockopt fd .sndbuf size s

/-- `diminuto_ipc_set_receive`, `Diminuto/src/diminuto_ipc.c:232-246`. -/
def setReceive (setsockopt : Int → Name → Int → σ → Answer × σ) (fd : Int) (size : Int) (s : σ) : Int × σ :=
  if size < 0 then (fd, s)
  else if size > MAXIMUM then setSocket setsockopt fd .rcvbuf MAXIMUM s
  else setSocket setsockopt fd .rcvbuf size s

/-- `struct linger`. -/
structure Linger where
  onoff : Bool
  linger : Int
deriving DecidableEq

/-- The computation in `diminuto_ipc_set_linger`, `Diminuto/src/diminuto_ipc.c:257-269`; the arithmetic is that of `uint64_t`. -/
def linger (ticks : BitVec 64) : Linger :=
  if ticks = 0 then ⟨false, 0⟩
  else if ticks ≤ BitVec.allOnes 64 - FREQUENCY then
    let ticks := ticks + FREQUENCY
    let ticks := ticks - 1
    let ticks := ticks / FREQUENCY
    ⟨true, if (ticks.toNat : Int) ≤ MAXIMUM then ticks.toNat else MAXIMUM⟩
  else ⟨true, MAXIMUM⟩

/-- `diminuto_ipc_set_linger`, `Diminuto/src/diminuto_ipc.c:248-281`. -/
def setLinger (setsockopt : Int → Linger → σ → Int × σ) (fd : Int) (ticks : BitVec 64) (s : σ) : Int × σ :=
  let (rc, s) := setsockopt fd (linger ticks) s
  if rc < 0 then (-10, s) else (fd, s)

end

end Diminuto.Options
