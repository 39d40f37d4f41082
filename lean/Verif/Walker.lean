import Verif.Fletcher

/-!
# Model of the walk through the file system

`diminuto_fs_walker` and `diminuto_fs_walk`, `Diminuto/src/diminuto_fs.c:73-266`, with the path in its buffer, byte by byte.  What is written or read out of bounds is
undefined behaviour, `none`.  The system calls and the function that is called for each object are arbitrary functions of a state.
-/

namespace Diminuto.Walker

/-- A string without its terminating NUL. -/
abbrev Name := List Byte

/-- `sizeof(diminuto_path_t)`, `Diminuto/inc/com/diag/diminuto/diminuto_types.h:162`. -/
def PATH : Nat := 4096

/-- The values of `errno` that are told apart, `Diminuto/src/diminuto_fs.c:141`, `Diminuto/src/diminuto_fs.c:181`. -/
inductive Errno where
  | acces | noent | notdir | overflow | nodev | other
deriving DecidableEq

/-- The system calls and the callback, `Diminuto/src/diminuto_fs.c:138-236`.  The entries that `readdir(3)` returns until the end of the directory or an error, and which
of these it is, are decided when the directory is opened.  Instead of the descriptor `closedir(3)` gets the path that was opened. -/
structure Sys (σ : Type) where
  lstat : Name → σ → Except Errno (BitVec 32) × σ
  opendir : Name → σ → Except Errno (List Name × Bool) × σ
  closedir : Name → σ → Bool × σ
  callback : Name → Name → Nat → BitVec 32 → σ → Int × σ

/-- `S_ISDIR`, `Diminuto/src/diminuto_fs.c:183`. -/
def isDir (mode : BitVec 32) : Bool := mode &&& 0xF000#32 = 0x4000#32

/-- `Diminuto/src/diminuto_fs.c:141`. -/
def ignored : Errno → Bool
  | .acces | .noent | .notdir | .overflow | .nodev => true
  | .other => false

/-- `Diminuto/src/diminuto_fs.c:181`: here `EOVERFLOW` is not ignored. -/
def ignoredDir : Errno → Bool
  | .acces | .noent | .notdir | .nodev => true
  | .overflow | .other => false

/-- The string in a buffer, that is all before the first NUL. -/
def text (path : List Byte) : Name := path.takeWhile (· ≠ 0#8)

/-- An assignment to a byte of the buffer. -/
def put (path : List Byte) (i : Nat) (b : Byte) : Option (List Byte) := if i < path.length then some (path.set i b) else none

/-- `strcat(3)`, `Diminuto/src/diminuto_fs.c:127`: there must be a NUL, and room for the string and another one. -/
def strcat (path : List Byte) (name : Name) : Option (List Byte) :=
  let k := (text path).length
  if k < path.length ∧ k + name.length < path.length then some (path.take k ++ (name ++ 0#8 :: path.drop (k + name.length + 1))) else none

/-- The value of `total` after the separator, `Diminuto/src/diminuto_fs.c:119-126`. -/
def separated (path : List Byte) (total : Nat) : Nat := if total = 0 then 0 else if path[total - 1]? = some 47#8 then total else total + 1

/-- The path with the separator, `Diminuto/src/diminuto_fs.c:119-126`. -/
def separate (path : List Byte) (total : Nat) : Option (List Byte) :=
  if total = 0 then some path
  else
    match path[total - 1]? with
    | none => none
    | some b => if b = 47#8 then some path else (put path total 47#8).bind fun p => put p (total + 1) 0#8

theorem le_separated (path : List Byte) (total : Nat) : total ≤ separated path total := by
  unfold separated
  split
  · omega
  · split <;> omega

mutual

/-- `diminuto_fs_walker`, `Diminuto/src/diminuto_fs.c:73-253`: what is returned, the buffer, and the state.  The callback is not null.  The text for the log is left out. -/
def walker {σ : Type} (sys : Sys σ) (name : Name) (path : List Byte) (total depth : Nat) (s : σ) : Option (Int × List Byte × σ) :=
  if depth > PATH / 2 then some (-3, path, s)
  else if h4 : min name.length PATH = 0 then some (-4, path, s)
  else if h5 : total + 1 + min name.length PATH + 1 > PATH then some (-5, path, s)
  else
    match (separate path total).bind fun p => strcat p name with
    | none => none
    | some p2 =>
      match sys.lstat (text p2) s with
      | (.error e, s) => if ignored e then (put p2 total 0#8).map fun p => (0, p, s) else some (-6, p2, s)
      | (.ok mode, s) =>
        match sys.callback name (text p2) depth mode s with
        | (rc, s) =>
          if rc ≠ 0 then some (rc, p2, s)
          else if isDir mode then
            match sys.opendir (text p2) s with
            | (.error e, s) => if ignoredDir e then (put p2 total 0#8).map fun p => (0, p, s) else some (-7, p2, s)
            | (.ok (names, fault), s) =>
              match entries sys names fault p2 (separated path total + min name.length PATH) (depth + 1) s with
              | none => none
              | some (xc, p3, s) =>
                match put p3 total 0#8 with
                | none => none
                | some p4 =>
                  match sys.closedir (text p2) s with
                  | (true, s) => some (xc, p4, s)
                  | (false, s) => some (-9, p4, s)
          else (put p2 total 0#8).map fun p => (0, p, s)
termination_by (PATH + 1 - total, 0)
decreasing_by
  all_goals
    have := le_separated path total
    apply Prod.Lex.left
    omega

/-- The loop over the entries of a directory, `Diminuto/src/diminuto_fs.c:195-230`. -/
def entries {σ : Type} (sys : Sys σ) (names : List Name) (fault : Bool) (path : List Byte) (total depth : Nat) (s : σ) : Option (Int × List Byte × σ) :=
  match names with
  | [] => some (if fault then -8 else 0, path, s)
  | name :: names =>
    if name = [] ∨ name = [46#8] ∨ name = [46#8, 46#8] then entries sys names fault path total depth s
    else
      match walker sys name path total depth s with
      | none => none
      | some (rc, path, s) => if rc = 0 then entries sys names fault path total depth s else some (rc, path, s)
termination_by (PATH + 1 - total, names.length + 1)

end

/-- `diminuto_fs_walk`, `Diminuto/src/diminuto_fs.c:255-266`.  What `realpath(3)` returns is an argument. -/
def walk {σ : Type} (sys : Sys σ) (real : Option Name) (s : σ) : Option (Int × List Byte × σ) :=
  match real with
  | none => some (-2, List.replicate PATH 0#8, s)
  | some real => walker sys real (List.replicate PATH 0#8) 0 0 s

/-- `diminuto_fs_mode2type`, `Diminuto/src/diminuto_fs.c:41-71`; the characters of the enumerators are in `Diminuto/inc/com/diag/diminuto/diminuto_fs.h:40-67`. -/
def mode2type (mode : BitVec 32) : Byte :=
  if mode &&& 0xF000#32 = 0x8000#32 then 102#8
  else if mode &&& 0xF000#32 = 0x4000#32 then 100#8
  else if mode &&& 0xF000#32 = 0xA000#32 then 108#8
  else if mode &&& 0xF000#32 = 0x2000#32 then 99#8
  else if mode &&& 0xF000#32 = 0x6000#32 then 98#8
  else if mode &&& 0xF000#32 = 0x1000#32 then 112#8
  else if mode &&& 0xF000#32 = 0xC000#32 then 115#8
  else
    let m := (mode &&& 0xF000#32) >>> 12
    if m ≤ 9#32 then 48#8 + m.setWidth 8
    else if 10#32 ≤ m ∧ m ≤ 15#32 then 65#8 + m.setWidth 8 - 10#8
    else 63#8

end Diminuto.Walker
