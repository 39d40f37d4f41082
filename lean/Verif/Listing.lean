import Verif.Walker

/-!
# Model of the tool that lists a part of the file system

`Diminuto/fun/walker.c:43-130`, over the model of `diminuto_fs_walk`.  What is written to the standard output is modelled byte by byte; it is assumed
not to fail.  The line with the metadata that goes to the standard error is left out, and so is the debugging that the option `-d` enables.
-/

namespace Diminuto.Listing

open Walker

/-- The line for an object, `Diminuto/fun/walker.c:51-67`. -/
def line (name : Name) (depth : Nat) (mode : BitVec 32) : List Byte :=
  List.replicate depth 32#8 ++ name ++
  (if name.length = 0 then []
   else if name[name.length - 1]? = some 47#8 then []
   else if !isDir mode then []
   else [47#8]) ++ [10#8]

/-- The system calls, and the callback, `Diminuto/fun/walker.c:43-93`; the state includes what has been written. -/
def printing {σ : Type} (sys : Sys σ) : Sys (σ × List Byte) where
  lstat := fun p s => ((sys.lstat p s.1).1, (sys.lstat p s.1).2, s.2)
  opendir := fun p s => ((sys.opendir p s.1).1, (sys.opendir p s.1).2, s.2)
  closedir := fun p s => ((sys.closedir p s.1).1, (sys.closedir p s.1).2, s.2)
  callback := fun name _ depth mode s => (0, s.1, s.2 ++ line name depth mode)

/-- The loop over the arguments, `Diminuto/fun/walker.c:121-126`.  `real` is `realpath(3)`. -/
def loop {σ : Type} (sys : Sys σ) (real : σ → Name → Option Name) : List Name → Int → σ × List Byte → Option (Int × σ × List Byte)
  | [], xc, s => some (xc, s)
  | arg :: args, xc, s =>
    (walk (printing sys) (real s.1 arg) s).bind fun r => loop sys real args (if xc = 0 then r.1 else xc) r.2.2

/-- The arguments without the option, `Diminuto/fun/walker.c:110-118`. -/
def operands : List Name → List Name
  | [] => []
  | arg :: args => if arg = [45#8, 100#8] then args else arg :: args

/-- `main`, `Diminuto/fun/walker.c:96-130`: what it returns, and the state.  The arguments are those after the name of the program. -/
def main {σ : Type} (sys : Sys σ) (real : σ → Name → Option Name) (args : List Name) (s : σ) : Option (Int × σ × List Byte) :=
  (if operands args = [] then (walk (printing sys) (real s [46#8]) (s, [])).map fun r => (r.1, r.2.2)
   else loop sys real (operands args) 0 (s, [])).map fun r => (if r.1 < 0 then -r.1 else r.1, r.2)

end Diminuto.Listing
