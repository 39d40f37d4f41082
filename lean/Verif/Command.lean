import Verif.Fletcher

/-!
# Model of the Command feature

Models `Diminuto/src/diminuto_command.c:15-74`.  The argument vector is a list of
strings (without terminators), `none` being a null pointer; reading beyond the
vector is undefined behaviour, `none`.  `size_t` sums do not wrap: they are bounded
by the memory the strings occupy.
-/

namespace Diminuto.Command

/-- The loop of `diminuto_command_length`, `Diminuto/src/diminuto_command.c:20-28`. -/
def lengthLoop : Nat → Nat → List (Option (List Byte)) → Nat → Option Nat
  | 0, _, _, total => some total
  | _ + 1, _, [], _ => none
  | _ + 1, _, none :: _, total => some total
  | argc + 1, index, some arg :: argv, total =>
    let total := if index > 0 then total + 1 else total
    lengthLoop argc (index + 1) argv (total + arg.length)

/-- `diminuto_command_length`, `Diminuto/src/diminuto_command.c:15-32`. -/
def commandLength (argc : Nat) (argv : List (Option (List Byte))) : Option Nat :=
  (lengthLoop argc 0 argv 0).map (· + 1)

/-- The loop of `diminuto_command_line`, `Diminuto/src/diminuto_command.c:47-68`:
the bytes stored by the loop, in order. -/
def lineLoop : Nat → Nat → List (Option (List Byte)) → Nat → Option (List Byte)
  | 0, _, _, _ => some []
  | _ + 1, _, [], _ => none
  | _ + 1, _, none :: _, _ => some []
  | argc + 1, index, some arg :: argv, limit =>
    if index = 0 then
      if arg.length > limit then some []
      else (lineLoop argc (index + 1) argv (limit - arg.length)).map (arg ++ ·)
    else if 1 > limit then some []
    else
      let limit := limit - 1
      if arg.length > limit then some [0x20#8]
      else (lineLoop argc (index + 1) argv (limit - arg.length)).map ([0x20#8] ++ arg ++ ·)

/-- `diminuto_command_line`, `Diminuto/src/diminuto_command.c:34-74`: the bytes
stored from the start of the buffer; the returned total is their number. -/
def commandLine (argc : Nat) (argv : List (Option (List Byte))) (size : Nat) :
    Option (List Byte) :=
  if size > 0 then (lineLoop argc 0 argv (size - 1)).map (· ++ [0#8]) else some []

end Diminuto.Command
