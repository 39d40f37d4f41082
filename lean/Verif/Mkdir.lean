import Verif.Fletcher

/-!
# Model of the making of directories and of the search along a list of directories

`diminuto_fs_mkdir_p`, `Diminuto/src/diminuto_fs.c:268-335`, and `diminuto_path_scan` and `diminuto_path_find`, `Diminuto/src/diminuto_path.c:24-88`.  A string is the list of its
characters, without the terminating NUL.  The system calls are arbitrary functions of a state.  Writing out of bounds is undefined behaviour, `none`.
-/

namespace Diminuto.Mkdir

/-- A string without its terminating NUL. -/
abbrev Name := List Byte

/-- `sizeof(diminuto_path_t)`, `Diminuto/inc/com/diag/diminuto/diminuto_types.h:162`. -/
def PATH : Nat := 4096

/-- What `mkdir(2)` does: it makes the directory, fails with `EEXIST`, or fails with another error, `Diminuto/src/diminuto_fs.c:321-328`. -/
inductive Result where
  | made | exists | failed
deriving DecidableEq

/-- `strtok_r(3)` with one delimiter, `Diminuto/src/diminuto_fs.c:314`, `Diminuto/src/diminuto_path.c:49`: the number of delimiters skipped, the token, and what is left after the delimiter that ends it. -/
def strtok (delimiter : Byte) (s : Name) : Option (Nat × Name × Name) :=
  let r := s.dropWhile (· = delimiter)
  if r = [] then none
  else some (s.length - r.length, r.takeWhile (· ≠ delimiter), (r.dropWhile (· ≠ delimiter)).drop 1)

theorem strtok_length {delimiter : Byte} {s : Name} {k : Nat} {token rest : Name} (h : strtok delimiter s = some (k, token, rest)) : rest.length < s.length := by
  unfold strtok at h
  simp only [] at h
  split at h
  · cases h
  · rename_i hr
    cases h
    have h1 : (s.dropWhile (· = delimiter)).length ≤ s.length := (List.dropWhile_sublist _).length_le
    have h2 : ((s.dropWhile (· = delimiter)).dropWhile (· ≠ delimiter)).length ≤ (s.dropWhile (· = delimiter)).length := (List.dropWhile_sublist _).length_le
    have h3 : (s.dropWhile (· = delimiter)).length ≠ 0 := fun h => hr (List.eq_nil_of_length_eq_zero h)
    rw [List.length_drop]
    omega

/-- `strcat(3)` to a buffer of this size, `Diminuto/src/diminuto_fs.c:317-319`. -/
def strcat (size : Nat) (sink x : Name) : Option Name := if sink.length + x.length + 1 ≤ size then some (sink ++ x) else none

/-- The loop, `Diminuto/src/diminuto_fs.c:314-331`.  `pos` is the position in `source` of what is left of it; a token is at `source` if it is at position 0. -/
def loop {σ : Type} (mkdir : Name → σ → Result × σ) (size : Nat) (rest : Name) (pos : Nat) (sink : Name) (s : σ) : Option (Int × σ) :=
  match _h : strtok 47#8 rest with
  | none => some (0, s)
  | some (k, token, rest') =>
    match (if pos + k ≠ 0 then strcat size sink [47#8] else some sink).bind fun sink => strcat size sink token with
    | none => none
    | some sink =>
      match mkdir sink s with
      | (.made, s) => loop mkdir size rest' (pos + k + token.length + 1) sink s
      | (.exists, s) => loop mkdir size rest' (pos + k + token.length + 1) sink s
      | (.failed, s) => some (-1, s)
termination_by rest.length
decreasing_by all_goals exact strtok_length (by assumption)

/-- `strrchr(3)`: the position of the last occurrence of a character, `Diminuto/src/diminuto_fs.c:298`. -/
def strrchr (c : Byte) : Name → Option Nat
  | [] => none
  | b :: l =>
    match strrchr c l with
    | some i => some (i + 1)
    | none => if b = c then some 0 else none

/-- `diminuto_fs_mkdir_p`, `Diminuto/src/diminuto_fs.c:268-335`.  The mode is left out. -/
def mkdirP {σ : Type} (mkdir : Name → σ → Result × σ) (path : Name) (all : Bool) (s : σ) : Option (Int × σ) :=
  if path.length ≥ PATH then some (-1, s)
  else if path.length = 0 then some (0, s)
  else if all then loop mkdir (path.length + 1) path 0 [] s
  else
    match strrchr 47#8 path with
    | none => some (0, s)
    | some i => if i = 0 then some (0, s) else loop mkdir (path.length + 1) (path.take i) 0 [] s

/-- The loop of `diminuto_path_scan`, `Diminuto/src/diminuto_path.c:48-63`.  `stat(2)` is a function of a state.  `snprintf(3)` is taken not to fail.  `strdup(3)` is taken to succeed. -/
def scanLoop {σ : Type} (stat : Name → σ → Bool × σ) (rest file : Name) (s : σ) : Option Name × σ :=
  match _h : strtok 58#8 rest with
  | none => (none, s)
  | some (_, pre, rest') =>
    let candidate := pre ++ 47#8 :: file
    if candidate.length ≥ PATH then (none, s)
    else
      match stat candidate s with
      | (true, s) => (some candidate, s)
      | (false, s) => scanLoop stat rest' file s
termination_by rest.length
decreasing_by exact strtok_length (by assumption)

/-- `diminuto_path_scan`, `Diminuto/src/diminuto_path.c:24-69`; a null pointer is `none`. -/
def scan {σ : Type} (stat : Name → σ → Bool × σ) (list file : Option Name) (s : σ) : Option Name × σ :=
  match list, file with
  | some list, some file => scanLoop stat list file s
  | _, _ => (none, s)

/-- `diminuto_path_find`, `Diminuto/src/diminuto_path.c:71-88`.  The environment is a function. -/
def find {σ : Type} (getenv : Name → Option Name) (stat : Name → σ → Bool × σ) (keyword file : Option Name) (s : σ) : Option Name × σ :=
  match keyword with
  | none => (none, s)
  | some keyword => scan stat (getenv keyword) file s

end Diminuto.Mkdir
