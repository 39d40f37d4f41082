import Verif.Mkdir

/-!
# Specification: the making of directories and the search along a list of directories
-/

namespace Diminuto.Mkdir

/-- A string and its components between delimiters; there are no empty ones. -/
inductive Split (x : Byte) : Name → List Name → Prop
  | nil : Split x [] []
  | delimiter {s : Name} {cs : List Name} : Split x s cs → Split x (x :: s) cs
  | last {c : Name} : c ≠ [] → x ∉ c → Split x c [c]
  | component {c s : Name} {cs : List Name} : c ≠ [] → x ∉ c → Split x s cs → Split x (c ++ x :: s) (c :: cs)

/-- The path of some components, absolute or relative. -/
def join (absolute : Bool) : List Name → Name
  | [] => []
  | [c] => if absolute then 47#8 :: c else c
  | c :: d :: cs => (if absolute then 47#8 :: c else c) ++ join true (d :: cs)

/-- The paths of the first component, of the first two, and so on. -/
def prefixes (absolute : Bool) (cs : List Name) : List Name := (List.range cs.length).map fun k => join absolute (cs.take (k + 1))

/-- A call of `mkdir(2)` for each path of a list, until one fails other than with `EEXIST`: what is returned and the state. -/
inductive Calls {σ : Type} (mkdir : Name → σ → Result × σ) : List Name → σ → Int → σ → Prop
  | nil {s : σ} : Calls mkdir [] s 0 s
  | more {p : Name} {ps : List Name} {s t u : σ} {x : Result} {r : Int} : mkdir p s = (x, t) → x ≠ .failed → Calls mkdir ps t r u → Calls mkdir (p :: ps) s r u
  | stop {p : Name} {ps : List Name} {s t : σ} : mkdir p s = (.failed, t) → Calls mkdir (p :: ps) s (-1) t

/-- The directory of a path: all before the last slash, if there is something before it. -/
inductive Directory : Name → Name → Prop
  | intro {d f : Name} : 47#8 ∉ f → d ≠ [] → Directory (d ++ 47#8 :: f) d

/-- The kinds of objects that matter. -/
inductive Kind where
  | directory | file
deriving DecidableEq

/-- A file system without links: the components of a path to what is there. -/
abbrev Fs := List Name → Option Kind

/-- `mkdir(2)` of a path given by its components: if its parent is a directory and it does not exist, it is made, unless there is another failure; nothing else changes. -/
inductive Makes (cs : List Name) : Fs → Result → Fs → Prop
  | made {fs : Fs} : fs cs.dropLast = some .directory → fs cs = none → Makes cs fs .made fun p => if p = cs then some .directory else fs p
  | exists {fs : Fs} : fs cs.dropLast = some .directory → fs cs ≠ none → Makes cs fs .exists fs
  | failed {fs : Fs} : Makes cs fs .failed fs

/-- A system call that does so; a relative path is below the components `cwd`. -/
def Honest (cwd : List Name) (mkdir : Name → Fs → Result × Fs) : Prop :=
  ∀ (s : Name) (cs : List Name) (fs : Fs), Split 47#8 s cs → cs ≠ [] → Makes (if s.head? = some 47#8 then cs else cwd ++ cs) fs (mkdir s fs).1 (mkdir s fs).2

/-- A search: the first of the candidates for which `stat(2)` succeeds. -/
inductive Search {σ : Type} (stat : Name → σ → Bool × σ) : List Name → σ → Option Name → σ → Prop
  | nil {s : σ} : Search stat [] s none s
  | found {p : Name} {ps : List Name} {s t : σ} : stat p s = (true, t) → Search stat (p :: ps) s (some p) t
  | next {p : Name} {ps : List Name} {s t u : σ} {r : Option Name} : stat p s = (false, t) → Search stat ps t r u → Search stat (p :: ps) s r u

end Diminuto.Mkdir
