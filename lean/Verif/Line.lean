import Verif.Walker
import Verif.Canonical
import Verif.Number

/-!
# Model of the lookup of GPIO lines

`diminuto_line_find_generic` and `diminuto_line_parse`, `Diminuto/src/diminuto_line.c:64-298`.  A string is the list of its characters without the terminating NUL, and a buffer
the list of its bytes, as many as the caller says that there are.  System calls are arbitrary functions of a state, except that `realpath(3)` and `stat(2)` do not depend on it.
-/

namespace Diminuto.Line

/-- A string without its terminating NUL. -/
abbrev Name := List Byte

/-- The system calls, `Diminuto/src/diminuto_line.c:81-123` and `Diminuto/src/diminuto_fs.c:73-266`.  A descriptor is of the type `δ`.  `chipinfo` and `lineinfo` are the calls of `ioctl(2)`
with `GPIO_GET_CHIPINFO_IOCTL` and `GPIO_V2_GET_LINEINFO_IOCTL`; the number of lines is less than 2^31, so that `ii` does not overflow, and the name of a line is a string. -/
structure World (σ δ : Type) where
  realpath : Name → Option Name
  stat : Name → Option (BitVec 32)
  lstat : Name → σ → Except Walker.Errno (BitVec 32) × σ
  opendir : Name → σ → Except Walker.Errno (List Name × Bool) × σ
  closedir : Name → σ → Bool × σ
  open_ : Name → σ → Option δ × σ
  chipinfo : δ → σ → Option (BitVec 31) × σ
  lineinfo : δ → Nat → σ → Option Name × σ
  close : δ → σ → Bool × σ

variable {σ δ : Type}

/-- The loop over the lines of a controller, `Diminuto/src/diminuto_line.c:93-117`: the offset of the line with the name, if there is one.  The last argument but one is how many lines
are left. -/
def search (w : World σ δ) (fd : δ) (wanted : Name) (ii : Nat) : Nat → σ → Option Nat × σ
  | 0, s => (none, s)
  | n + 1, s =>
    match w.lineinfo fd ii s with
    | (none, s) => (none, s)
    | (some name, s) =>
      if name = [] then search w fd wanted (ii + 1) n s
      else if name ≠ wanted then search w fd wanted (ii + 1) n s
      else (some ii, s)

/-- The first part of `walker`, `Diminuto/src/diminuto_line.c:85-117`, after the file has been opened. -/
def chip (w : World σ δ) (fd : δ) (wanted : Name) (s : σ) : Option Nat × σ :=
  match w.chipinfo fd s with
  | (none, s) => (none, s)
  | (some lines, s) => search w fd wanted 0 lines.toNat s

/-- What `state_t` has of the line that has been found: the string in `buffer`, and `line`, `Diminuto/src/diminuto_line.c:64-71`. -/
abbrev Found := Option (Name × Nat)

/-- `walker`, `Diminuto/src/diminuto_line.c:73-132`.  `strncmp(3)` with the length of the prefix says whether the name begins with it. -/
def walker (w : World σ δ) (wanted pre : Name) (name path : Name) (_depth : Nat) (mode : BitVec 32) (s : Found × σ) : Int × Found × σ :=
  if Walker.mode2type mode ≠ 99#8 then (0, s)
  else if name.take pre.length ≠ pre then (0, s)
  else
    match w.open_ path s.2 with
    | (none, t) => (0, s.1, t)
    | (some fd, t) =>
      match chip w fd wanted t with
      | (none, t) => (0, s.1, (w.close fd t).2)
      | (some ii, t) => (1, some (path.take (Walker.PATH - 1), ii), (w.close fd t).2)

/-- The walk with that callback, `Diminuto/src/diminuto_line.c:152`. -/
def finder (w : World σ δ) (wanted pre : Name) : Walker.Sys (Found × σ) where
  lstat := fun p s => ((w.lstat p s.2).1, s.1, (w.lstat p s.2).2)
  opendir := fun p s => ((w.opendir p s.2).1, s.1, (w.opendir p s.2).2)
  closedir := fun p s => ((w.closedir p s.2).1, s.1, (w.closedir p s.2).2)
  callback := walker w wanted pre

/-- `strncpy(3)` to a buffer, all of it, and a NUL at its end, `Diminuto/src/diminuto_line.c:155-158`. -/
def strncpy (buffer : List Byte) (path : Name) : List Byte :=
  if buffer.length > 0 then ((path ++ List.replicate buffer.length 0#8).take buffer.length).set (buffer.length - 1) 0#8 else buffer

/-- What a function leaves: whether it returns the buffer, and not null; the buffer; and the variables for the line and the inversion. -/
structure Result where
  found : Bool
  buffer : List Byte
  line : BitVec 32
  inverted : Bool
deriving DecidableEq

/-- `diminuto_line_find_generic`, `Diminuto/src/diminuto_line.c:134-168`.  `none` is undefined behaviour of the walk.  If nothing has been found then the string is empty and the line is the
largest number, `Diminuto/src/diminuto_line.c:150`. -/
def find (w : World σ δ) (wanted root pre : Name) (r : Result) (s : σ) : Option (Result × σ) :=
  match Walker.walk (finder w wanted pre) (w.realpath root) (none, s) with
  | none => none
  | some (rc, _, f, s) =>
    if rc > 0 then
      some ({ r with found := true, buffer := strncpy r.buffer ((f.map (·.1)).getD []), line := BitVec.ofNat 32 ((f.map (·.2)).getD 0xFFFFFFFF) }, s)
    else some ({ r with found := false }, s)

/-- `COM_DIAG_DIMINUTO_LINE_ROOT`, `"/dev"`, `Diminuto/inc/com/diag/diminuto/diminuto_line.h:43`. -/
def ROOT : Name := [47#8, 100#8, 101#8, 118#8]

/-- `COM_DIAG_DIMINUTO_LINE_PREFIX`, `"gpiochip"`, `Diminuto/inc/com/diag/diminuto/diminuto_line.h:49`. -/
def PREFIX : Name := [103#8, 112#8, 105#8, 111#8, 99#8, 104#8, 105#8, 112#8]

/-- The condition for a path, `Diminuto/src/diminuto_line.c:193-196`: it begins with `"/"`, `"./"` or `"../"`. -/
def pathlike (s : Name) : Bool := s[0]? = some 47#8 || s.take 2 = [46#8, 47#8] || s.take 3 = [46#8, 46#8, 47#8]

/-- The optional sign, `Diminuto/src/diminuto_line.c:217-224` and `Diminuto/src/diminuto_line.c:263-270`: whether it is a minus, and what is after it. -/
def sign (s : Name) : Bool × Name := if s[0]? = some 45#8 then (true, s.drop 1) else if s[0]? = some 43#8 then (false, s.drop 1) else (false, s)

/-- `strcpy(3)` to a buffer in which there is room. -/
def strcpy (buffer : List Byte) (s : Name) : List Byte := s ++ 0#8 :: buffer.drop (s.length + 1)

/-- `diminuto_line_parse`, `Diminuto/src/diminuto_line.c:178-298`.  `unsigned long` has 64 bits.  `diminuto_fs_type`, `Diminuto/src/diminuto_fs.c:492-504`, is `DIMINUTO_FS_TYPE_NONE` if `stat(2)`
fails.  `errno` is left out.  `none` is undefined behaviour. -/
def parse (w : World σ δ) (parameter : Name) (r : Result) (s : σ) : Option (Result × σ) :=
  match (if pathlike parameter then Canonical.strrchr 58#8 parameter else none) with
  | some i =>
    let (inverted, offset) := sign (parameter.drop (i + 1))
    if offset = [] then some ({ r with found := false }, s)
    else
      let (value, e, _) := Number.strtoull offset
      if e ≠ [] then some ({ r with found := false }, s)
      else if value > 0xFFFFFFFF then some ({ r with found := false }, s)
      else
        match Canonical.canonicalize w.realpath (parameter.take i) r.buffer.length with
        | .undefined => none
        | .failure => some ({ r with found := false }, s)
        | .success c =>
          if (w.stat c).isNone then some ({ r with found := false, buffer := strcpy r.buffer c }, s)
          else some ({ found := true, buffer := strcpy r.buffer c, line := BitVec.ofNat 32 value, inverted := inverted }, s)
  | none =>
    let (inverted, name) := sign parameter
    match find w name ROOT PREFIX { r with line := 0xFFFFFFFF#32 } s with
    | none => none
    | some (q, s) => if q.found then some ({ q with inverted := inverted }, s) else some ({ r with found := false }, s)

end Diminuto.Line
