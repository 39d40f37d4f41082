import Verif.Fletcher

/-!
# Model of path canonicalisation

`diminuto_fs_canonicalize`, `Diminuto/src/diminuto_fs.c:358-490`.  A string is the list of its characters, without the terminating NUL.  What
`realpath(3)` returns is a parameter: a function from paths to absolute paths, or failure.
-/

namespace Diminuto.Canonical

/-- `sizeof(diminuto_path_t)`, `Diminuto/inc/com/diag/diminuto/diminuto_types.h` (`PATH_MAX` bytes). -/
def PATH : Nat := 4096

/-- What a call does: undefined behaviour, return of -1, or return of 0 with this string in the buffer, `Diminuto/src/diminuto_fs.c:358-490`. -/
inductive Outcome where
  | undefined
  | failure
  | success (s : List Byte)
deriving DecidableEq

/-- `strrchr(3)`: the index of the last occurrence of a character, `Diminuto/src/diminuto_fs.c:410`. -/
def strrchr (c : Byte) : List Byte → Option Nat
  | [] => none
  | b :: l =>
    match strrchr c l with
    | some i => some (i + 1)
    | none => if b = c then some 0 else none

/-- The values of `path`, `plength` and `file` after the first part of the function, `Diminuto/src/diminuto_fs.c:382-436`;
`none` if it fails.  `flength` is the length of `file`.  In the last case, `relativepath` has been zeroed, so that what is copied to it is
terminated, and `plength` remains the length of the whole argument; only whether it is zero is used. -/
def parts (path : List Byte) : Option (List Byte × Nat × List Byte) :=
  let plength := min path.length PATH
  if plength ≥ PATH then none
  else if plength = 0 then none
  else if path = [47#8] then some ([], 0, [])
  else if path = [47#8, 46#8] then some ([], 0, [])
  else if path = [47#8, 46#8, 46#8] then some ([], 0, [])
  else
    match strrchr 47#8 path with
    | none => some ([46#8], 1, path)
    | some i =>
      let file := path.drop (i + 1)
      if file.length = 0 then some (path, plength, [])
      else if file = [46#8] then some (path, plength, [])
      else if file = [46#8, 46#8] then some (path, plength, [])
      else if i + 1 ≤ 1 then some ([], 0, file)
      else some (path.take (i + 1), plength, file)

/-- `strcpy(3)` and `strcat(3)` to a buffer of a size, `Diminuto/src/diminuto_fs.c:477-481`; the terminating NUL must fit. -/
def put (size : Nat) (s : List Byte) : Option (List Byte) := if s.length + 1 ≤ size then some s else none

/-- The second part of the function, `Diminuto/src/diminuto_fs.c:450-485`. -/
def build (realpath : List Byte → Option (List Byte)) (size : Nat) (path : List Byte) (plength : Nat) (file : List Byte) : Outcome :=
  match (if plength = 0 then some [] else realpath path) with
  | none => .failure
  | some pre =>
    if 1 + file.length + pre.length ≥ size then .failure
    else
      match put size pre with
      | none => .undefined
      | some s =>
        -- prefix[xlength - 1]
        if pre.length = 0 then .undefined
        else
          match (if pre[pre.length - 1]? ≠ some 47#8 then put size (s ++ [47#8]) else some s) with
          | none => .undefined
          | some s =>
            match put size (s ++ file) with
            | none => .undefined
            | some s => .success s

/-- `diminuto_fs_canonicalize`, `Diminuto/src/diminuto_fs.c:358-490`. -/
def canonicalize (realpath : List Byte → Option (List Byte)) (path : List Byte) (size : Nat) : Outcome :=
  match parts path with
  | none => .failure
  | some (p, n, f) => build realpath size p n f

end Diminuto.Canonical
