import Verif.Fd

/-!
# Model of the use of GPIO lines

`diminuto_line_open_generic` and the functions that get, put and read lines, `Diminuto/src/diminuto_line.c:304-535`.  System calls are arbitrary functions of a state.
-/

namespace Diminuto.LineRequest

/-- `struct gpio_v2_line_request`, `linux/gpio.h`, as far as it is used: `debounce` is the first attribute, with its mask and its debounce period, if `num_attrs` is 1. -/
structure Request where
  offsets : List (BitVec 32)
  consumer : List Byte
  flags : BitVec 64
  debounce : Option (BitVec 64 × BitVec 32)
  numLines : BitVec 32
deriving DecidableEq

/-- The system calls, `Diminuto/src/diminuto_line.c:353-373`, `Diminuto/src/diminuto_line.c:413`, `Diminuto/src/diminuto_line.c:467`: `request`, `getValues` and `setValues` are `ioctl(2)` with
`GPIO_V2_GET_LINE_IOCTL`, `GPIO_V2_LINE_GET_VALUES_IOCTL` and `GPIO_V2_LINE_SET_VALUES_IOCTL`.  The first returns the member `fd`, the second the member `bits` and what the call returns, the third
only that; nothing, if they fail. -/
structure World (σ : Type) where
  open_ : List Byte → σ → Option Int × σ
  request : Int → Request → σ → Option Int × σ
  getValues : Int → BitVec 64 → σ → Option (Nat × BitVec 64) × σ
  setValues : Int → BitVec 64 → BitVec 64 → σ → Option Nat × σ
  close : Int → σ → Bool × σ

/-- `GPIO_V2_LINES_MAX`, `linux/gpio.h`, the size of `offsets`, `Diminuto/src/diminuto_line.c:314`. -/
def LINES : Nat := 64

/-- The loop over the lines, `Diminuto/src/diminuto_line.c:320-325`: `ii` after it, and the offsets. -/
def fill (offsets : List (BitVec 32)) (ii : Nat) : List (BitVec 32) → Nat × List (BitVec 32)
  | [] => (ii, offsets)
  | l :: ls => if l.toNat ≥ 64 then (ii, offsets) else fill (offsets.set ii l) (ii + 1) ls

/-- The loop that makes the mask, `Diminuto/src/diminuto_line.c:336-338`; the last argument is how many lines are left. -/
def mask (m : BitVec 64) (ii : Nat) : Nat → BitVec 64
  | 0 => m
  | n + 1 => mask (m ||| (1#64 <<< ii)) (ii + 1) n

/-- `strncpy(3)` to the array, and a NUL at its end, `Diminuto/src/diminuto_line.c:346-348`. -/
def label (consumer : List Byte) : List Byte := ((consumer ++ List.replicate 32 0#8).take 32).set 31 0#8

variable {σ : Type}

/-- `diminuto_line_open_generic`, `Diminuto/src/diminuto_line.c:304-379`.  The argument `consumer` is the string that the variable of that name points to, `Diminuto/src/diminuto_line.c:39`; that it is
read with the mutex held is left out.  `errno` and the log are left out. -/
def openGeneric (w : World σ) (consumer path : List Byte) (lines : List (BitVec 32)) (flags : BitVec 64) (useconds : BitVec 32) (s : σ) : Int × σ :=
  if ¬ (0 < lines.length ∧ lines.length < LINES) then (-1, s)
  else
    let (ii, offsets) := fill (List.replicate LINES 0#32) 0 lines
    if ii ≠ lines.length then (-1, s)
    else
      let request : Request :=
        { offsets := offsets, consumer := label consumer, flags := flags, numLines := BitVec.ofNat 32 lines.length,
          debounce := if useconds.toNat > 0 then some (mask 0#64 0 lines.length, useconds) else none }
      match w.open_ path s with
      | (none, s) => (-1, s)
      | (some fd, s) =>
        match w.request fd request s with
        | (none, s) => (-1, (w.close fd s).2)
        | (some result, s) => (result, (w.close fd s).2)

/-- `diminuto_line_close`, `Diminuto/src/diminuto_line.c:381-392`. -/
def close (w : World σ) (fd : Int) (s : σ) : Int × σ :=
  if fd < 0 then (fd, s)
  else
    match w.close fd s with
    | (false, s) => (fd, s)
    | (true, s) => (-1, s)

/-- `diminuto_line_get_generic`, `Diminuto/src/diminuto_line.c:398-423`: what is returned, and the variable for the bits. -/
def getGeneric (w : World σ) (fd : Int) (mask bits : BitVec 64) (s : σ) : (Int × BitVec 64) × σ :=
  if mask = 0#64 then ((-1, bits), s)
  else
    match w.getValues fd mask s with
    | (none, s) => ((-1, bits), s)
    | (some (rc, b), s) => ((rc, b), s)

/-- `diminuto_line_get`, `Diminuto/src/diminuto_line.c:425-443`. -/
def get (w : World σ) (fd : Int) (s : σ) : Int × σ :=
  match getGeneric w fd 1#64 0#64 s with
  | ((rc, bits), s) => if rc < 0 then (-1, s) else (if bits &&& 1#64 ≠ 0#64 then 1 else 0, s)

/-- `diminuto_line_put_generic`, `Diminuto/src/diminuto_line.c:449-474`. -/
def putGeneric (w : World σ) (fd : Int) (mask bits : BitVec 64) (s : σ) : Int × σ :=
  if mask = 0#64 then (-1, s)
  else
    match w.setValues fd mask bits s with
    | (none, s) => (-1, s)
    | (some rc, s) => (rc, s)

/-- `diminuto_line_put`, `Diminuto/src/diminuto_line.c:476-496`. -/
def put (w : World σ) (fd state : Int) (s : σ) : Int × σ :=
  match putGeneric w fd 1#64 (if state ≠ 0 then 1#64 else 0#64) s with
  | (rc, s) => if rc < 0 then (-1, s) else (state, s)

/-- `sizeof(struct gpio_v2_line_event)`, `linux/gpio.h`. -/
def EVENT : Nat := 48

/-- The member `id` of an event, `linux/gpio.h`, on a machine that has the least significant byte first. -/
def ident (event : List Byte) : Nat :=
  (event.getD 8 0#8).toNat + 256 * (event.getD 9 0#8).toNat + 65536 * (event.getD 10 0#8).toNat + 16777216 * (event.getD 11 0#8).toNat

/-- `diminuto_line_read`, `Diminuto/src/diminuto_line.c:502-535`: what is returned, and the kernel afterwards. -/
def read (k : List Fd.Source) : Fd.Outcome (Int × List Fd.Source) :=
  (Fd.readGeneric k (List.replicate EVENT 0#8) 48#64 48#64).map fun g =>
    (if g.ret < 0 then -1
      else if g.ret = 0 then -1
      else if g.ret ≠ (EVENT : Int) then -1
      else if ident g.mem = 1 then 1
      else if ident g.mem = 2 then 0
      else -1, g.kernel)

end Diminuto.LineRequest
