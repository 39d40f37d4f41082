import Verif.Fletcher

/-!
# Model of the bounded string copy

Models `diminuto_string_copy`, `Diminuto/src/diminuto_string.c:17-29`.  Both
arguments are the lists of the bytes of the objects pointed to; reading or
writing beyond an object is undefined behaviour, `none`.
-/

namespace Diminuto.StringCopy

/-- A store through `dest`; `Diminuto/src/diminuto_string.c:22` and `:25`. -/
def store (b : Byte) : List Byte → Option (List Byte)
  | [] => none
  | _ :: rest => some (b :: rest)

/-- `diminuto_string_copy`, `Diminuto/src/diminuto_string.c:17-29`: the contents
of the destination object afterwards. -/
def copy : Nat → List Byte → List Byte → Option (List Byte)
  | 0, dest, _ => some dest
  | 1, dest, _ => store 0#8 dest
  | _ + 2, _, [] => none
  | n + 2, dest, c :: src =>
    if c = 0#8 then store 0#8 dest
    else match dest with
      | [] => none
      | _ :: rest => (copy (n + 1) rest src).map (c :: ·)

end Diminuto.StringCopy
