import Verif.Number

/-!
# Model of the Pin feature

`Diminuto/src/diminuto_pin.c:40-411` and the functions of `Diminuto/inc/com/diag/diminuto/diminuto_pin.h:176-406`.  The system calls and functions of the C library are arbitrary functions of a
state.  A stream is a number.  Of `errno` only the classes that are told apart are kept.  Debugging and log messages are left out.
-/

namespace Diminuto.Pin
open Number (decimal)

abbrev Name := List Byte

/-- The characters of a literal. -/
def ascii (s : String) : Name := s.toList.map fun c => BitVec.ofNat 8 c.toNat

/-- The formats, `Diminuto/src/diminuto_pin.c:48-58`. -/
inductive Attr where
  | export | direction | activelow | edge | value | unexport
deriving DecidableEq, Repr

/-- What `stat(2)` or `fopen(3)` does: success, an error that may go away (`ENOENT`, `EPERM`, `EACCES`), or another one; `Diminuto/src/diminuto_pin.c:103-113` and `:126-136`. -/
inductive Answer (α : Type) where
  | ok (a : α)
  | transient
  | other
deriving DecidableEq, Repr

/-- What `fputs(3)` or `fflush(3)` does: success, `EINVAL`, or another error; `Diminuto/src/diminuto_pin.c:158-168` and `:172-182`. -/
inductive Put where
  | ok | invalid | other
deriving DecidableEq, Repr

/-- The calls that are used.  For `fopen(3)` the flag is that of the mode `"w"`. -/
structure World (σ : Type) where
  stat : Name → σ → Answer Unit × σ
  fopen : Name → Bool → σ → Answer Nat × σ
  fputs : Nat → Name → σ → Put × σ
  fflush : Nat → σ → Put × σ
  fclose : Nat → σ → Bool × σ
  delay : BitVec 64 → σ → σ
  lseek : Nat → σ → Bool × σ
  write : Nat → Name → σ → Int × σ
  read : Nat → Nat → σ → Option Name × σ

/-- What `snprintf(filename, …, format, root, pin)` prints, `Diminuto/src/diminuto_pin.c:48-58`; for a pin that is not negative.  The first and the last format do not use the number. -/
def path (root : Name) (a : Attr) (pin : Nat) : Name :=
  match a with
  | .export => root ++ ascii "/class/gpio/export"
  | .unexport => root ++ ascii "/class/gpio/unexport"
  | .direction => root ++ ascii "/class/gpio/gpio" ++ decimal pin ++ ascii "/direction"
  | .activelow => root ++ ascii "/class/gpio/gpio" ++ decimal pin ++ ascii "/active_low"
  | .edge => root ++ ascii "/class/gpio/gpio" ++ decimal pin ++ ascii "/edge"
  | .value => root ++ ascii "/class/gpio/gpio" ++ decimal pin ++ ascii "/value"

/-- `sizeof(diminuto_path_t)`, `Diminuto/inc/com/diag/diminuto/diminuto_types.h`. -/
def PATH : Nat := 4096

/-- The file name after `snprintf(3)`, which stores a terminator always, so that the test at `Diminuto/src/diminuto_pin.c:90` is never true. -/
def filename (root : Name) (a : Attr) (pin : Nat) : Name := (path root a pin).take (PATH - 1)

/-- `diminuto_pin_debug` together with the default, `Diminuto/src/diminuto_pin.c:44-46` and `:60-68`: the new root and the prior one. -/
def debug (root : Name) (tmp : Option Name) : Name × Name := (tmp.getD (ascii "/sys"), root)

section
variable {σ : Type} (w : World σ) (root : Name) (ticks : BitVec 64)

/-- The loop of `diminuto_pin_configure_generic`, `Diminuto/src/diminuto_pin.c:99-149`; `ticks` is the variable `diminuto_pin_delay`, which is used instead of the argument. -/
def attempt (file : Name) : Nat → σ → Option Nat × σ
  | 0, s => (none, s)
  | tt + 1, s =>
    match w.stat file s with
    | (.other, s) => (none, s)
    | (.transient, s) => if tt = 0 then (none, s) else attempt file tt (w.delay ticks s)
    | (.ok _, s) =>
      match w.fopen file true s with
      | (.ok h, s) => (some h, s)
      | (.other, s) => (none, s)
      | (.transient, s) => if tt = 0 then (none, s) else attempt file tt (w.delay ticks s)

/-- The conditions under which the function goes on after `fputs(3)` and `fflush(3)`, `Diminuto/src/diminuto_pin.c:158-168` and `:172-182`. -/
def tolerated (ignore : Bool) : Put → Bool
  | .ok => true
  | .invalid => ignore
  | .other => false

/-- `diminuto_pin_configure_generic`, `Diminuto/src/diminuto_pin.c:70-202`: whether it succeeds.  The argument `delay` is not used. -/
def configure (a : Attr) (pin : Int) (string : Name) (ignore : Bool) (tries : Nat) (_delay : BitVec 64) (s : σ) : Bool × σ :=
  if pin < 0 then (false, s)
  else match attempt w ticks (filename root a pin.toNat) tries s with
    | (none, s) => (false, s)
    | (some fp, s) =>
      match w.fputs fp string s with
      | (p, s) =>
        if tolerated ignore p = false then (false, (w.fclose fp s).2)
        else match w.fflush fp s with
          | (q, s) =>
            if tolerated ignore q = false then (false, (w.fclose fp s).2)
            else w.fclose fp s

/-- `"%d\n"` for a pin; the buffer is large enough.  `Diminuto/src/diminuto_pin.c:206-207`. -/
def line (pin : Int) : Name := (if pin < 0 then 45#8 :: decimal pin.natAbs else decimal pin.toNat) ++ [10#8]

/-- `diminuto_pin_port_generic`, `Diminuto/src/diminuto_pin.c:204-209`. -/
def port (a : Attr) (pin : Int) (ignore : Bool) (s : σ) : Bool × σ := configure w root ticks a pin (line pin) ignore 1 0#64 s

/-- `diminuto_pin_export`, `Diminuto/inc/com/diag/diminuto/diminuto_pin.h:227-230`. -/
def export_ (pin : Int) (s : σ) : Bool × σ := port w root ticks .export pin false s

/-- `diminuto_pin_unexport`, `Diminuto/inc/com/diag/diminuto/diminuto_pin.h:238-241`. -/
def unexport (pin : Int) (s : σ) : Bool × σ := port w root ticks .unexport pin false s

/-- `diminuto_pin_unexport_ignore`, `Diminuto/inc/com/diag/diminuto/diminuto_pin.h:251-254`. -/
def unexportIgnore (pin : Int) (s : σ) : Bool × σ := port w root ticks .unexport pin true s

variable (tries : Nat)

/-- `diminuto_pin_active`, `Diminuto/inc/com/diag/diminuto/diminuto_pin.h:262-265`; `tries` is the variable `diminuto_pin_tries`. -/
def active (pin : Int) (high : Bool) (s : σ) : Bool × σ := configure w root ticks .activelow pin (if high then ascii "0\n" else ascii "1\n") false tries ticks s

/-- The strings of `diminuto_pin_edge`, `Diminuto/src/diminuto_pin.c:215-221`, for a value of the enumeration. -/
def edges (edge : Nat) : Name :=
  if edge = 0 then ascii "none\n" else if edge = 1 then ascii "rising\n" else if edge = 3 then ascii "both\n" else ascii "falling\n"

/-- `diminuto_pin_edge`, `Diminuto/src/diminuto_pin.c:211-224`. -/
def edge (pin : Int) (edge : Nat) (s : σ) : Bool × σ := configure w root ticks .edge pin (edges edge) false tries ticks s

/-- `diminuto_pin_direction`, `Diminuto/inc/com/diag/diminuto/diminuto_pin.h:287-290`. -/
def direction (pin : Int) (output : Bool) (s : σ) : Bool × σ := configure w root ticks .direction pin (if output then ascii "out\n" else ascii "in\n") false tries ticks s

/-- `diminuto_pin_initialize`, `Diminuto/inc/com/diag/diminuto/diminuto_pin.h:299-302`. -/
def initial (pin : Int) (high : Bool) (s : σ) : Bool × σ := configure w root ticks .direction pin (if high then ascii "high\n" else ascii "low\n") false tries ticks s

/-- `diminuto_pin_open`, `Diminuto/src/diminuto_pin.c:226-265`. -/
def open_ (pin : Int) (output : Bool) (s : σ) : Option Nat × σ :=
  if pin < 0 then (none, s)
  else
    let file := filename root .value pin.toNat
    match w.stat file s with
    | (.ok _, s) =>
      match w.fopen file output s with
      | (.ok h, s) => (some h, s)
      | (_, s) => (none, s)
    | (_, s) => (none, s)

/-- `diminuto_pin_close`, `Diminuto/src/diminuto_pin.c:267-280`. -/
def close (fp : Option Nat) (s : σ) : Option Nat × σ :=
  match fp with
  | none => (none, s)
  | some h =>
    match w.fclose h s with
    | (ok, s) => (if ok then none else some h, s)

/-- `diminuto_pin_setup`, `Diminuto/src/diminuto_pin.c:282-295`. -/
def setup (pin : Int) (output : Bool) (s : σ) : Option Nat × σ :=
  match export_ w root ticks pin s with
  | (false, s) => (none, s)
  | (true, s) =>
    match direction w root ticks tries pin output s with
    | (false, s) => (none, s)
    | (true, s) => open_ w root pin output s

/-- `diminuto_pin_unused`, `Diminuto/src/diminuto_pin.c:297-310`. -/
def unused (fp : Option Nat) (pin : Int) (s : σ) : Option Nat × σ :=
  match fp with
  | none => (none, s)
  | some h =>
    match unexport w root ticks pin s with
    | (false, s) => (some h, s)
    | (true, s) =>
      match close w (some h) s with
      | (some _, s) => (some h, s)
      | (none, s) => (none, s)

/-- `diminuto_pin_put`, `Diminuto/src/diminuto_pin.c:323-358`: whether it succeeds. -/
def put (fp : Nat) (assert : Bool) (s : σ) : Bool × σ :=
  match w.lseek fp s with
  | (false, s) => (false, s)
  | (true, s) =>
    match w.write fp (if assert then ascii "1\n" else ascii "0\n") s with
    | (n, s) => (!decide (n < 0), s)

/-- `diminuto_pin_get`, `Diminuto/src/diminuto_pin.c:361-411`. -/
def get (fp : Nat) (s : σ) : Int × σ :=
  match w.lseek fp s with
  | (false, s) => (-1, s)
  | (true, s) =>
    match w.read fp 2 s with
    | (none, s) => (-1, s)
    | (some [], s) => (-1, s)
    | (some (c :: _), s) => (if c = 48#8 then 0 else if c = 49#8 then 1 else -1, s)

end

end Diminuto.Pin
