import Verif.Walker

/-!
# Specification: the walk through the file system
-/

namespace Diminuto.Walker

/-- The errors of `lstat(2)` that are no reason to stop: the object has gone or cannot be accessed. -/
def tolerated (e : Errno) : Bool := e ≠ .other

/-- The errors of `opendir(3)` that are no reason to stop. -/
def toleratedDir (e : Errno) : Bool := e ≠ .other ∧ e ≠ .overflow

/-- The mode is that of a directory: its kind, the four bits above the lower twelve, is four. -/
def directory (mode : BitVec 32) : Bool := mode.extractLsb' 12 4 = 4#4

/-- What the callback is given. -/
structure Visit where
  name : Name
  path : Name
  depth : Nat
  mode : BitVec 32
deriving DecidableEq

/-- A file system that does not change: the mode of an object and the entries of a directory. -/
structure Fs where
  mode : Name → Except Errno (BitVec 32)
  names : Name → Except Errno (List Name)

/-- The calls for such a file system.  The state is the list of the visits so far, on which and on the visit depends what the callback returns.  Reading and closing a directory do not fail. -/
def Fs.sys (fs : Fs) (f : List Visit → Visit → Int) : Sys (List Visit) where
  lstat := fun p s => (fs.mode p, s)
  opendir := fun p s => ((match fs.names p with | .ok l => .ok (l, false) | .error e => .error e), s)
  closedir := fun _ s => (true, s)
  callback := fun n p d m s => (f s ⟨n, p, d, m⟩, s ++ [⟨n, p, d, m⟩])

/-- The path of an entry of a directory: there is one slash between them. -/
def under (p n : Name) : Name := if p.getLast? = some 47#8 then p ++ n else p ++ 47#8 :: n

/-- An entry that stands for an object in the directory. -/
def Proper (n : Name) : Prop := n ≠ [] ∧ n ≠ [46#8] ∧ n ≠ [46#8, 46#8]

/-- The objects at and below a root, with their path, name and depth. -/
inductive Below (fs : Fs) (root : Name) : Name → Name → Nat → Prop
  | root : Below fs root root root 0
  | entry {p n : Name} {d : Nat} {mode : BitVec 32} {names : List Name} {m : Name} : Below fs root p n d → fs.mode p = .ok mode → directory mode = true →
      fs.names p = .ok names → m ∈ names → Proper m → Below fs root (under p m) m (d + 1)

/-- What is required of the file system below a root: the paths are not too long, names have no NUL and no slash, and there are no errors other than those that are tolerated. -/
structure Sound (fs : Fs) (root : Name) : Prop where
  start : root ≠ [] ∧ 0#8 ∉ root ∧ (root.getLast? = some 47#8 → root = [47#8])
  short : ∀ p n d, Below fs root p n d → p.length ≤ 4094
  names : ∀ p names, fs.names p = .ok names → ∀ m ∈ names, 0#8 ∉ m ∧ 47#8 ∉ m
  mode : ∀ p n d e, Below fs root p n d → fs.mode p = .error e → tolerated e = true
  dir : ∀ p n d mode e, Below fs root p n d → fs.mode p = .ok mode → directory mode = true → fs.names p = .error e → toleratedDir e = true

/-- No directory lists a name twice. -/
def Distinct (fs : Fs) : Prop := ∀ p names, fs.names p = .ok names → names.Nodup

/-- What a walk over the objects `vs` returns, and the visits it makes: all, and 0, if the callback always returns 0; otherwise those up to the first for which it does not,
and what it returns. -/
def Outcome (f : List Visit → Visit → Int) (vs : List Visit) (r : Int) (log : List Visit) : Prop :=
  (r = 0 ∧ log = vs ∧ ∀ i (h : i < vs.length), f (vs.take i) vs[i] = 0) ∨
  ∃ i, ∃ h : i < vs.length, r = f (vs.take i) vs[i] ∧ r ≠ 0 ∧ log = vs.take (i + 1) ∧ ∀ j (hj : j < i), f (vs.take j) vs[j] = 0

/-- The calls, with a note in the state whether one of them failed with an error that is not tolerated, or the callback asked to stop. -/
def watched {σ : Type} (sys : Sys σ) : Sys (σ × Bool) where
  lstat := fun p s =>
    match sys.lstat p s.1 with
    | (.error e, t) => (.error e, t, s.2 || !tolerated e)
    | (.ok m, t) => (.ok m, t, s.2)
  opendir := fun p s =>
    match sys.opendir p s.1 with
    | (.error e, t) => (.error e, t, s.2 || !toleratedDir e)
    | (.ok l, t) => (.ok l, t, s.2 || l.2)
  closedir := fun p s => ((sys.closedir p s.1).1, (sys.closedir p s.1).2, s.2 || !(sys.closedir p s.1).1)
  callback := fun n p d m s => ((sys.callback n p d m s.1).1, (sys.callback n p d m s.1).2, s.2 || decide ((sys.callback n p d m s.1).1 ≠ 0))

/-- The names that `readdir(3)` returns are strings without a slash. -/
def Named {σ : Type} (sys : Sys σ) : Prop := ∀ p s names fault t, sys.opendir p s = (.ok (names, fault), t) → ∀ n ∈ names, 0#8 ∉ n ∧ 47#8 ∉ n

end Diminuto.Walker
