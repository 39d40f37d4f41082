import Verif.Number

/-!
# Model of the Realtime feature

`Diminuto/src/diminuto_realtime.c`.
-/

namespace Diminuto.Realtime

open Number (isSpace sign digits)

/-- An open file: what can be read of it, and the error number if a read fails after that. -/
structure Stream where
  bytes : List Byte
  error : Option Int

/-- What `fscanf(fp, "%d", &value)` returns. -/
inductive Scan where
  /-- It returns 1. -/
  | value (v : Int)
  /-- It returns 0. -/
  | mismatch
  /-- It returns `EOF`. -/
  | eof
deriving DecidableEq

/-- `strtol(3)`, with which glibc converts, and the assignment to an `int`: the magnitude is limited to that of a `long`, and the upper half is dropped. -/
def convert (negative : Bool) (n : Nat) : Int :=
  let long : Int := if negative then (if n ≤ 2 ^ 63 then -(n : Int) else -2 ^ 63) else (if n < 2 ^ 63 then (n : Int) else 2 ^ 63 - 1)
  (BitVec.ofInt 32 long).toInt

/-- `fscanf(fp, "%d", &value)` in glibc, `Diminuto/src/diminuto_realtime.c:38`: white space is skipped, there may be a sign, and there must be a digit. -/
def fscanf (s : Stream) : Scan :=
  let t := s.bytes.dropWhile isSpace
  if t = [] then .eof
  else
    let (negative, u) := sign t
    let (count, n, _) := digits 10 0 0 u
    if count = 0 then .mismatch else .value (convert negative n)

/-- What `fscanf` makes of `errno` when it returns `EOF`: the error number of the read that failed, or, at the end of the file, what the library makes of it, which is given.  glibc sets it to zero here; C and POSIX do not allow a function to do so, and
in a library that keeps to this it is what it was. -/
def eofErrno (library : Int → Int) (s : Stream) (errno : Int) : Int :=
  match s.error with
  | some e => e
  | none => library errno

/-- `diminuto_realtime_is_supported_fp`, `Diminuto/src/diminuto_realtime.c:22-60`, for a pointer that may be null: the value that it returns. -/
def isSupportedFp (library : Int → Int) (fp : Option Stream) (errno : Int) : Int :=
  match fp with
  | none => -1
  | some s =>
    match fscanf s with
    | .value v => if v ≤ 0 then 0 else 1
    | .mismatch => 0
    | .eof => if eofErrno library s errno = 0 then 0 else -1

/-- `ENOENT`. -/
def ENOENT : Int := 2

/-- What `fopen(3)` makes of a path: an open file, or an error number. -/
inductive Fopen where
  | file (s : Stream)
  | error (e : Int)

/-- `diminuto_realtime_is_supported_path`, `Diminuto/src/diminuto_realtime.c:62-102`, for a path that may be null: the value that it returns, and whether a file has been opened and has been closed.  The first argument is what `fopen` makes of a path, the second one whether
`fclose(3)` succeeds, the fourth one `errno` when `fopen` has opened the file. -/
def isSupportedPath {Path : Type} (fopen : Path → Fopen) (fclose : Bool) (library : Int → Int) (errno : Int) (path : Option Path) : Int × Bool × Bool :=
  match path with
  | none => (-1, false, false)
  | some p =>
    match fopen p with
    | .error e => (if e = ENOENT then 0 else -1, false, false)
    | .file s =>
      let result := isSupportedFp library (some s) errno
      (if fclose then result else -1, true, true)

end Diminuto.Realtime
