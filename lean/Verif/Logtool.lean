import Verif.Stdio
import Verif.Log

/-!
# Model of the tool that logs its arguments or its standard input

`Diminuto/bin/log.c`.  The arguments are those that `getopt(3)` hands over and the ones after them; the conversions of the numbers are done.  The log mask is what `diminuto_log_setmask` has made of it, `Diminuto/src/diminuto_log.c:139-180`.  What becomes of
a message in the log is another model.
-/

namespace Diminuto.Logtool

open Diminuto.Stdio (Stream)

/-- An option, `Diminuto/bin/log.c:60-163`: the size of the buffer, no standard input, unconditionally, one of the eight levels by its number in the system log, those which have no effect on what is logged (`-A`, `-F`, `-N`, `-O`, `-S`, `-s`), and any other. -/
inductive Option' where
  | size (n : BitVec 64)
  | suppress
  | unconditional
  | level (n : Fin 8)
  | other
  | usage
deriving DecidableEq

/-- The variables of `main`, `Diminuto/bin/log.c:46-52`. -/
structure Config where
  mask : BitVec 32
  priority : Nat
  unconditional : Bool
  suppress : Bool
  length : BitVec 64
deriving DecidableEq

/-- Their initial values, `Diminuto/bin/log.c:46-52`, with those of the header file, `Diminuto/inc/com/diag/diminuto/diminuto_log.h:104`, `:228`. -/
def initial : Config := ⟨Log.DEFAULT, 5, false, false, 256⟩

/-- The switch of the loop over the options, `Diminuto/bin/log.c:62-163`; nothing is for the usage message. -/
def option (c : Config) : Option' → Option Config
  | .size n => some { c with length := n }
  | .suppress => some { c with suppress := true }
  | .unconditional => some { c with unconditional := true }
  | .level n => some { c with mask := Log.priority2mask n, priority := n }
  | .other => some c
  | .usage => none

/-- The loop over the options, `Diminuto/bin/log.c:60-165`. -/
def options (c : Config) : List Option' → Option Config
  | [] => some c
  | o :: os => (option c o).bind fun c => options c os

/-- A message that has been handed to the log with its priority. -/
structure Message where
  priority : Nat
  text : List Byte
deriving DecidableEq

/-- What a run comes to: a status, with the messages and with whether the standard input has been read to its end; or it has not ended after so many lines. -/
inductive Outcome where
  | exit (status : Nat) (log : List Message) (consumed : Bool)
  | running (log : List Message)
deriving DecidableEq

/-- The condition, `Diminuto/bin/log.c:169`, `:206`. -/
def enabled (c : Config) (mask : BitVec 32) : Bool := c.unconditional || Log.enabled mask c.mask

/-- The loop over the arguments that are left, `Diminuto/bin/log.c:173-184`: the empty ones are skipped. -/
def arguments (c : Config) : List (List Byte) → List Message
  | [] => []
  | a :: as => if a = [] then arguments c as else ⟨c.priority, a ++ [10#8]⟩ :: arguments c as

/-- The loop over the lines, `Diminuto/bin/log.c:205-209`, with the messages so far. -/
def lines (c : Config) (mask : BitVec 32) : Nat → Stream → List Message → Outcome
  | 0, _, log => .running log
  | turns + 1, s, log =>
    match Stdio.fgets (Stdio.int c.length) s with
    | (none, s) => .exit 0 log s.eof
    | (some bs, s) => lines c mask turns s (if enabled c mask then log ++ [⟨c.priority, Stdio.text bs⟩] else log)

/-- `main`, `Diminuto/bin/log.c:40-216`, with whether `malloc(3)` succeeds. -/
def main (mask : BitVec 32) (opts : List Option') (args : List (List Byte)) (memory : Bool) (stdin : List (Option Byte)) (turns : Nat) : Outcome :=
  match options initial opts with
  | none => .exit 1 [] false
  | some c =>
    let log := if enabled c mask then arguments c args else []
    if c.suppress then .exit 0 log false
    else if log.length > 0 then .exit 0 log false
    else if !memory then .exit 1 log false
    else lines c mask turns ⟨stdin, false, false⟩ log

end Diminuto.Logtool
