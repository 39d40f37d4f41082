import Verif.Number
import Verif.Section
import Verif.Time
import Verif.Pin

/-!
# Model of the Log feature

`Diminuto/src/diminuto_log.c`.  The text of a message is what `vsnprintf(3)` makes of the format and its arguments.  Messages of `perror(3)`, which does not use this feature, are left out.
-/

namespace Diminuto.Log
open Number (strtoll decimal)
open Pin (ascii)

/-! ## Masks -/

/-- `diminuto_log_mask_t`, an `int`; `DIMINUTO_LOG_MASK_ALL`, `Diminuto/inc/com/diag/diminuto/diminuto_log.h:92-107`. -/
def ALL : BitVec 32 := 0xff#32

/-- `diminuto_log_priority2mask`, `Diminuto/src/diminuto_log.c:91-126`; the priorities are those of `syslog(3)`. -/
def priority2mask (priority : Int) : BitVec 32 :=
  if priority = 0 then 1#32 <<< (7 - 0)
  else if priority = 1 then 1#32 <<< (7 - 1)
  else if priority = 2 then 1#32 <<< (7 - 2)
  else if priority = 3 then 1#32 <<< (7 - 3)
  else if priority = 4 then 1#32 <<< (7 - 4)
  else if priority = 5 then 1#32 <<< (7 - 5)
  else if priority = 6 then 1#32 <<< (7 - 6)
  else if priority = 7 then 1#32 <<< (7 - 7)
  else ALL

/-- `DIMINUTO_LOG_ENABLED` and `diminuto_log_mask_isenabled`, `Diminuto/inc/com/diag/diminuto/diminuto_log.h:377-380` and `:578`. -/
def enabled (mask m : BitVec 32) : Bool := mask &&& m ≠ 0#32

/-- `DIMINUTO_LOG_MASK_DEFAULT`, `Diminuto/inc/com/diag/diminuto/diminuto_log.h:104`. -/
def DEFAULT : BitVec 32 := priority2mask 0 ||| priority2mask 1 ||| priority2mask 2 ||| priority2mask 3 ||| priority2mask 4 ||| priority2mask 5

/-- `diminuto_log_setmask`, `Diminuto/src/diminuto_log.c:139-165`, with the value of the environmental variable.  `strncmp(string, "~0", 3)` is zero exactly if the strings are equal.  The value of
`strtol(3)`, a `long`, is converted to `int`. -/
def setmask (env : Option (List Byte)) (mask : BitVec 32) : BitVec 32 :=
  match env with
  | none => mask
  | some string =>
    if string = ascii "~0" then ALL
    else if (strtoll string).1 < 0 then mask
    else if (strtoll string).2.1 ≠ [] then mask
    else BitVec.ofInt 32 (strtoll string).1

/-- What there is under a path: nothing, something that cannot be opened, or a file (or something else) from which some bytes can be read. -/
inductive File where
  | absent
  | locked
  | text (l : List Byte)

/-- The calls of `fopen(3)` and `fclose(3)`. -/
inductive Call where
  | fopen (path : List Byte)
  | fclose
deriving DecidableEq, Repr

/-- `fgets(buffer, 81, fp)`: the characters up to the newline, but not more than 80; of these the string in the buffer ends at the first NUL.  `Diminuto/src/diminuto_log.c:196`. -/
def line (l : List Byte) : List Byte := (((l.takeWhile (· ≠ 10#8)) ++ (if 10#8 ∈ l then [10#8] else [])).take 80).takeWhile (· ≠ 0#8)

/-- `*end`, which is NUL at the end of the string, is one of the characters that may follow; `Diminuto/src/diminuto_log.c:205`. -/
def follows (rest : List Byte) : Bool :=
  match rest with
  | [] => true
  | c :: _ => c = 10#8 || c = 32#8 || c = 9#8 || c = 35#8

/-- The path, `Diminuto/src/diminuto_log.c:175-184`; the buffer has `PATH_MAX` bytes. -/
def maskpath (path home : Option (List Byte)) : List Byte :=
  match path with
  | some p => p
  | none => ((home.getD (ascii ".")) ++ ascii "/" ++ ascii ".com_diag_diminuto_log_mask").take 4095

/-- `diminuto_log_importmask`, `Diminuto/src/diminuto_log.c:167-220`, with the value of `HOME` and the files: the mask and the calls.  `strncmp(buffer, "~0", 2)` compares two characters. -/
def importmask (path home : Option (List Byte)) (files : List Byte → File) (mask : BitVec 32) : BitVec 32 × List Call :=
  match files (maskpath path home) with
  | .absent => (mask, [])
  | .locked => (mask, [.fopen (maskpath path home)])
  | .text l =>
    (if l = [] then mask
     else if (line l).take 2 = ascii "~0" then ALL
     else if (strtoll (line l)).1 < 0 then mask
     else if ¬ follows (strtoll (line l)).2.1 then mask
     else BitVec.ofInt 32 (strtoll (line l)).1,
     [.fopen (maskpath path home), .fclose])

/-! ## Messages -/

/-- `DIMINUTO_LOG_BUFFER_MAXIMUM`, `Diminuto/inc/com/diag/diminuto/diminuto_log.h:274`. -/
def MAXIMUM : Nat := 8192

/-- A field with a precision, as in `%4.4d` and `%9.9llu`. -/
def padded (k n : Nat) : List Byte := List.replicate (k - (decimal n).length) 48#8 ++ decimal n

/-- The sign, which is printed before the digits. -/
def signed (k : Nat) (i : Int) : List Byte := if i < 0 then 45#8 :: padded k i.natAbs else padded k i.toNat

/-- The timestamp `"%4.4d-%2.2d-%2.2dT%2.2d:%2.2d:%2.2d.%9.9lluZ"`, `Diminuto/src/diminuto_log.c:403`. -/
def stamp (f : Time.Fields) : List Byte :=
  signed 4 f.year ++ ascii "-" ++ signed 2 f.month ++ ascii "-" ++ signed 2 f.day ++ ascii "T" ++ signed 2 f.hour ++ ascii ":" ++ signed 2 f.minute ++ ascii ":" ++ signed 2 f.second ++ ascii "." ++
    padded 9 f.tick.toNat ++ ascii "Z"

/-- The fields of the time, `Diminuto/src/diminuto_log.c:376-382` and `:402`: there are none if the time is not known, if it cannot be converted, or if it is before the Epoch.  The outer `none` is
undefined behaviour. -/
def fields (c : Time.Libc) (now : Int) : Option (Option Time.Fields) :=
  if now = Time.ERROR then some none else (Time.zulu c now).map fun f => if 0 ≤ now then f else none

/-- A hexadecimal digit. -/
def nibble (n : Nat) : Byte := BitVec.ofNat 8 (if n < 10 then 48 + n else 87 + n)

/-- What `printf(3)` prints for `%llx`. -/
def hexadecimal (n : Nat) : List Byte := if n < 16 then [nibble n] else hexadecimal (n / 16) ++ [nibble (n % 16)]
decreasing_by omega

/-- `PRIORITIES`, `Diminuto/src/diminuto_log.c:33-42`, and `priority & 0x7`. -/
def priorities (priority : BitVec 32) : List Byte :=
  match (priority &&& 7#32).toNat with
  | 0 => ascii "EMER"
  | 1 => ascii "ALRT"
  | 2 => ascii "CRIT"
  | 3 => ascii "EROR"
  | 4 => ascii "WARN"
  | 5 => ascii "NOTE"
  | 6 => ascii "INFO"
  | _ => ascii "DBUG"

/-- What is before the text of a message, `Diminuto/src/diminuto_log.c:402-406`; there are no fields if the time is not known. -/
def header (now : Option Time.Fields) (hostname : List Byte) (priority : BitVec 32) (pid tid : Nat) : List Byte :=
  (match now with | some f => stamp f | none => ascii "****-**-**T**:**:**.*********T") ++ ascii " \"" ++ hostname ++ ascii "\" <" ++ priorities priority ++ ascii "> [" ++ decimal pid ++ ascii "] {" ++
    hexadecimal tid ++ ascii "} "

/-- What is done with the buffer, of which the size is a parameter, `Diminuto/src/diminuto_log.c:407-439`: what will be written.  The texts are those that `snprintf(3)` and `vsnprintf(3)` have;
they return how long these are, and store them as far as there is room; a failure is the same as an empty text.  The result `none` is an access outside of the buffer. -/
def assemble (size : Nat) (header text : List Byte) : Option (List Byte) :=
  let first := header.take (size - 1)
  let space := size - first.length
  let second := text.take (space - 1)
  let total := first.length + second.length
  let space := space - second.length
  if space ≤ 1 then
    if total = 0 then none else some ((first ++ second).take (total - 1) ++ [10#8])
  else if total = 0 then none
  else if (first ++ second)[total - 1]? ≠ some 10#8 then
    if total + 1 < size then some (first ++ second ++ [10#8]) else none
  else some (first ++ second)

/-- The kernel: what `write(2)` returns, and whether `errno` is `EINTR` when it fails. -/
structure Kernel (σ : Type) where
  write : List Byte → σ → Int × Bool × σ

/-- One turn of the loop, with what there is still to write, `Diminuto/src/diminuto_log.c:455-485`: this or what is left, and the number of lost messages, `diminuto_log_lost`.  The return value of
`write(2)` becomes an `int`.  In `rc > total` it is converted to `size_t`. -/
def turn {σ : Type} (k : Kernel σ) (todo : List Byte) (s : σ × Nat) : (List Byte ⊕ Unit) × (σ × Nat) :=
  match k.write todo s.1 with
  | (r, eintr, s') =>
    let rc : BitVec 32 := BitVec.ofInt 32 r
    if rc = 0 then (.inr (), (s', s.2 + 1))
    else if rc.signExtend 64 > BitVec.ofNat 64 todo.length then (.inr (), (s', s.2))
    else if 0 < rc.toInt then (if todo.drop rc.toNat = [] then .inr () else .inl (todo.drop rc.toNat), (s', s.2))
    else if eintr then (.inl todo, (s', s.2))
    else (.inr (), (s', s.2 + 1))

/-- The loop is in a critical section with `diminuto_log_mutex`, `Diminuto/src/diminuto_log.c:453-488`. -/
def emission {σ : Type} (k : Kernel σ) : Section.Body (σ × Nat) (List Byte) (List Byte) Unit where
  init := id
  step := turn k

/-! ## Routing -/

/-- What the functions find out about the process and the log file descriptor. -/
structure Process where
  /-- `isatty(fd)` -/
  tty : Bool
  /-- The type of the object according to `fstat(fd)`; there is none if it fails. -/
  stat : Option Byte
  /-- `getpid() == getsid(0)` -/
  leader : Bool
  /-- `getppid() == 1` -/
  orphan : Bool

/-- Where a message goes. -/
inductive Route where
  | suppressed
  | descriptor
  | syslog
deriving DecidableEq, Repr

/-- What comes of it: the thread waits for ever for a mutex that it holds itself, or the message goes somewhere, and `diminuto_log_cached` is set or not. -/
inductive Outcome where
  | hangs
  | goes (r : Route) (cached : Bool)
deriving DecidableEq, Repr

/-- `DIMINUTO_FS_TYPE_FILE`, `Diminuto/inc/com/diag/diminuto/diminuto_fs.h:40-78`. -/
def FILE : Byte := 102#8

/-- The decision of `diminuto_log_vlog`, `Diminuto/src/diminuto_log.c:495-567`.  It holds `diminuto_log_mutex`, which is not recursive (`:58`), and calls `diminuto_fd_type`
(`Diminuto/src/diminuto_fd.c:251-269`); when `fstat(2)` fails that calls `diminuto_perror`, which is `diminuto_log_perror` (`Diminuto/inc/com/diag/diminuto/diminuto_error.h:53`), and that calls
`diminuto_log_vlog` again unless it is suppressed (`:630-645`). -/
def vlog (strategy : Byte) (suppress cached : Bool) (p : Process) : Outcome :=
  if strategy = 88#8 then .goes .suppressed cached
  else if strategy = 69#8 then .goes .descriptor cached
  else if strategy = 83#8 then .goes .syslog cached
  else if strategy ≠ 65#8 then .goes .syslog cached
  else if cached then .goes .syslog cached
  else if ¬ p.tty ∧ p.stat = none ∧ ¬ suppress then .hangs
  else if ¬ p.tty ∧ p.stat = some FILE then .goes .descriptor cached
  else if p.leader then .goes .syslog true
  else if p.orphan then .goes .syslog true
  else .goes .descriptor false

/-- `diminuto_log_open_syslog`, `Diminuto/src/diminuto_log.c:222-258`, as far as it changes `diminuto_log_cached`; `diminuto_log_vsyslog` (`:336-347`) calls it first. -/
def openSyslog (cached : Bool) (p : Process) : Bool := if cached then cached else if p.leader then true else if p.orphan then true else cached

/-- Several messages in a row, with what the process is like at each: where they go. -/
def messages (strategy : Byte) (suppress : Bool) : Bool → List Process → Option (List Route)
  | _, [] => some []
  | cached, p :: ps =>
    match vlog strategy suppress cached p with
    | .hangs => none
    | .goes r cached => (messages strategy suppress (if r = .syslog then openSyslog cached p else cached) ps).map (r :: ·)

/-- `diminuto_log_interactive`, `Diminuto/inc/com/diag/diminuto/diminuto_log.h:400-403`. -/
def interactive (p : Process) : Bool := !p.leader && !p.orphan

/-- `diminuto_log_log`, `diminuto_log_syslog`, `diminuto_log_write`, and `diminuto_log_emit`, `Diminuto/src/diminuto_log.c:573-624`: `errno` is saved, and restored after whatever is done. -/
def variadic {σ : Type} (body : Int × σ → Int × σ) (x : Int × σ) : Int × σ := (x.1, (body x).2)

/-- `diminuto_log_perror` and `diminuto_log_serror`, `Diminuto/src/diminuto_log.c:617-646`: the function that logs is given the error number.  `strerror_r(3)` is in the body. -/
def perror {σ : Type} (suppress : Bool) (body : Int → Int × σ → Int × σ) (x : Int × σ) : Int × σ :=
  if ¬ suppress then (x.1, (variadic (body x.1) x).2) else x

/-! ## The stream -/

/-- A `FILE`. -/
inductive Stream where
  | stderr
  | stdout
  | other (n : Nat)
deriving DecidableEq, Repr

/-- A call of `fclose(3)` or `fdopen(3)`. -/
inductive StreamCall where
  | fclose (f : Stream)
  | fdopen (fd : Int)
deriving DecidableEq, Repr

/-- `diminuto_log_stream`, `Diminuto/src/diminuto_log.c:280-334`: with the descriptor, the stream so far, `fileno(3)`, and what `fdopen(3)` will return; the stream and the calls.  Whether
`fclose(3)` fails makes no difference. -/
def stream (descriptor : Int) (file : Option Stream) (fileno : Stream → Int) (fdopen : Option Stream) : Option Stream × List StreamCall :=
  let a : Option Stream × List StreamCall :=
    match file with
    | none => (none, [])
    | some f =>
      if descriptor = fileno f then (some f, [])
      else if f = .stderr then (none, [])
      else if f = .stdout then (none, [])
      else if fileno f = 2 then (none, [])
      else if fileno f = 1 then (none, [])
      else (none, [.fclose f])
  match a.1 with
  | some f => (some f, a.2)
  | none =>
    if descriptor = fileno .stderr then (some .stderr, a.2)
    else if descriptor = fileno .stdout then (some .stdout, a.2)
    else (fdopen, a.2 ++ [.fdopen descriptor])

end Diminuto.Log
