import Verif.Canonical
import Verif.Number

/-!
# Model of the paths and addresses of local sockets

`Diminuto/src/diminuto_ipcl.c:36-208`.  A string is the list of its characters, without the terminating NUL; a buffer is the list of the bytes that may be
written.  `none` is undefined behaviour.  `realpath(3)` is a parameter as in `Verif/Canonical.lean`; a call of `diminuto_perror` has no effect here.
-/

namespace Diminuto.Ipcl

/-- `sizeof(diminuto_local_t)`: `NAME_MAX`, `Diminuto/inc/com/diag/diminuto/diminuto_types.h:105` and `:116`. -/
def LOCAL : Nat := 255

/-- `sizeof(sa.sun_path)`: `UNIX_PATH_MAX` of `<linux/un.h>`, `Diminuto/src/diminuto_ipcl.c:21`. -/
def SUN : Nat := 108

/-- `strncpy(3)` of a string that is terminated, to a number of bytes. -/
def strncpy (n : Nat) (s : List Byte) : List Byte := s.take n ++ List.replicate (n - s.length) 0#8

/-- `strncpy` and the terminator in the last byte, `Diminuto/src/diminuto_ipcl.c:124-126`. -/
def strncpyz (n : Nat) (s : List Byte) : List Byte := (strncpy n s).set (n - 1) 0#8

/-- `diminuto_ipcl_path`, `Diminuto/src/diminuto_ipcl.c:95-131`: NULL, or the buffer afterwards; if NULL is returned, the buffer has not been written. -/
def path (realpath : List Byte → Option (List Byte)) (p : List Byte) (buffer : List Byte) : Option (Option (List Byte)) :=
  if buffer.length ≤ 0 then some none
  else if p = [] then some (some (buffer.set 0 0#8))
  else
    match Canonical.canonicalize realpath p LOCAL with
    | .undefined => none
    | .failure => some none
    | .success canonical =>
      if canonical.length < 2 then some none
      else if canonical[canonical.length - 1]? = some 47#8 then some none
      else if canonical.length ≥ buffer.length then some none
      else some (some (strncpyz buffer.length canonical))

/-- `diminuto_ipcl_path2string`, `Diminuto/src/diminuto_ipcl.c:49-68`: the buffer afterwards. -/
def path2string (realpath : List Byte → Option (List Byte)) (p : Option (List Byte)) (buffer : List Byte) : Option (List Byte) :=
  if buffer.length = 0 then some buffer
  else if buffer.length = 1 then some (buffer.set 0 0#8)
  else
    match p with
    | none => some ((buffer.set 0 42#8).set 1 0#8)
    | some p =>
      match path realpath p buffer with
      | none => none
      | some none => some ((buffer.set 0 42#8).set 1 0#8)
      | some (some b) => some b

/-- `diminuto_ipcl_identify`, `Diminuto/src/diminuto_ipcl.c:74-89`: the return value and the buffer afterwards.  Of the address there are the family and the bytes of
`sun_path`; if there is no NUL among them, `strncpy(3)` must not look for more than these. -/
def identify (unix : Bool) (sun : List Byte) (pathp : Option (List Byte)) : Option (Int × Option (List Byte)) :=
  if unix = false then some (-1, pathp)
  else
    match pathp with
    | none => some (0, none)
    | some buffer =>
      if buffer.length = 0 then none
      else if 0#8 ∉ sun ∧ buffer.length > sun.length then none
      else some (0, some (strncpyz buffer.length (sun.takeWhile (· ≠ 0#8))))

/-- `strncpy(sa.sun_path, path, sizeof(sa.sun_path))`: what a socket is bound or connected to, `Diminuto/src/diminuto_ipcl.c:199`, `:299`, `:376` and `:439`. -/
def address (p : List Byte) : List Byte := strncpy SUN p

/-- What `diminuto_ipcl_source` asks `bind(2)` for, `Diminuto/src/diminuto_ipcl.c:171-208`: the return value if it does not, or the address. -/
def source (fd : Int) : Option (List Byte) → Int ⊕ List Byte
  | none => .inl (-1)
  | some [] => .inl fd
  | some p => .inr (address p)

/-- `strncmp(3)` of glibc: the difference of the first characters that differ; the terminators are characters. -/
def strncmp : Nat → List Byte → List Byte → Int
  | 0, _, _ => 0
  | _ + 1, [], [] => 0
  | _ + 1, a :: _, [] => a.toNat
  | _ + 1, [], b :: _ => -(b.toNat : Int)
  | n + 1, a :: s, b :: t => if a = b then strncmp n s t else (a.toNat : Int) - b.toNat

/-- `diminuto_ipcl_compare`, `Diminuto/src/diminuto_ipcl.c:36-43`. -/
def compare : Option (List Byte) → Option (List Byte) → Int
  | none, _ => -2147483648
  | some _, none => 2147483647
  | some p, some q => strncmp Canonical.PATH p q

end Diminuto.Ipcl
