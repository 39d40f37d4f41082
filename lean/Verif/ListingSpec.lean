import Verif.Listing
import Verif.WalkerSpec

/-! # What the tool that lists a part of the file system should do -/

namespace Diminuto.Listing

open Walker

/-- The lines of a text, without the newlines. -/
def lines : List Byte → List (List Byte)
  | [] => []
  | c :: t =>
    if c = 10#8 then [] :: lines t
    else
      match lines t with
      | [] => [[c]]
      | l :: ls => (c :: l) :: ls

/-- What a line says: by how much it is indented, what follows, and whether that ends with a slash. -/
def parse (l : List Byte) : Nat × Name × Bool :=
  let t := l.dropWhile (· = 32#8)
  let d := l.length - t.length
  if t.getLast? = some 47#8 then (d, t.dropLast, true) else (d, t, false)

/-- Reading a listing from top to bottom: the paths that lead to the last object read are kept; an object that is indented by `d` is in the last object before it that
is indented by `d - 1`. -/
def paths : List (List Byte) → List Name → List (Name × Bool)
  | [], _ => []
  | l :: ls, above =>
    let (d, n, dir) := parse l
    let p := match (above.take d).getLast? with
      | none => if n = [] then [47#8] else n
      | some q => under q n
    (p, dir) :: paths ls (above.take d ++ [p])

/-- A name that does not look like something else in a listing. -/
def Plain (n : Name) : Prop := 10#8 ∉ n ∧ n.head? ≠ some 32#8

/-- The calls for a file system that does not change; there is nothing else in the state. -/
def still (fs : Fs) : Sys Unit where
  lstat := fun p s => (fs.mode p, s)
  opendir := fun p s => ((match fs.names p with | .ok l => .ok (l, false) | .error e => .error e), s)
  closedir := fun _ s => (true, s)
  callback := fun _ _ _ _ s => (0, s)

/-- The arguments are walked one after the other, from the state `s` to the state `t`, and the walks return `rs`. -/
inductive Walked {σ : Type} (sys : Sys σ) (real : σ → Name → Option Name) : List Name → σ × List Byte → List Int → σ × List Byte → Prop
  | nil {s : σ × List Byte} : Walked sys real [] s [] s
  | cons {arg : Name} {args : List Name} {s t u : σ × List Byte} {r : Int} {rs : List Int} {path : List Byte} : walk (printing sys) (real s.1 arg) s = some (r, path, t) →
      Walked sys real args t rs u → Walked sys real (arg :: args) s (r :: rs) u

end Diminuto.Listing
