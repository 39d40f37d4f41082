import Verif.Fletcher

/-!
# Model of the tool that renames and exchanges files

Models `Diminuto/bin/renametool.c`.  The names of a file system lead to files, which are numbers; `renameat2(2)` is as its manual says, and may also fail for any other reason, in which case it does nothing.  Messages are left out.
-/

namespace Diminuto.Renametool

/-- What the names lead to. -/
abbrev Names := List Byte → Option Nat

/-- `renameat2(2)`, `Diminuto/bin/renametool.c:68`, with `RENAME_EXCHANGE`, if both names exist, or `RENAME_NOREPLACE`, if the first one exists and the second one does not; `able` is if nothing else prevents it.  `none` is a failure. -/
def renameat2 (able : Bool) (fs : Names) (fromfile tofile : List Byte) (exchange : Bool) : Option Names :=
  if able = false then none
  else
    match exchange, fs fromfile, fs tofile with
    | true, some f, some t => some fun n => if n = fromfile then some t else if n = tofile then some f else fs n
    | false, some f, none => some fun n => if n = fromfile then none else if n = tofile then some f else fs n
    | _, _, _ => none

/-- `strcmp(argv[ndx], "-x") == 0`, `Diminuto/bin/renametool.c:52`. -/
def isExchange (arg : List Byte) : Bool := arg = [45#8, 120#8]

/-- `main`, `Diminuto/bin/renametool.c:30-76`: the status and what the names lead to.  Without any argument, not even the name of the program, `strrchr(3)` is called with a null pointer, `:41`, which is undefined. -/
def main (able : Bool) (fs : Names) (argv : List (List Byte)) : Option (Nat × Names) :=
  if argv.length = 0 then none
  else if argv.length < 3 then some (2, fs)
  else
    let exchange := isExchange (argv.getD 1 [])
    let ndx := if exchange then 2 else 1
    if argv.length ≠ ndx + 2 then some (2, fs)
    else
      match renameat2 able fs (argv.getD ndx []) (argv.getD (ndx + 1) []) exchange with
      | none => some (1, fs)
      | some fs => some (0, fs)

end Diminuto.Renametool
