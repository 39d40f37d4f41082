/-!
# Model of the sizes of pages and of lines of the cache

`Diminuto/src/diminuto_memory.c:22-130`.  Sizes are of the type `ssize_t`, and everything returned by the system is an integer of that type.  The section that reads the environment is left out.
-/

namespace Diminuto.Memorysize

/-- What the two functions are compiled with and what the system answers: an explicit size if there is one, `sysconf(3)`, and `getpagesize(2)`. -/
structure Pages where
  explicit : Option Int
  sysconf : Int
  getpagesize : Int
deriving DecidableEq

/-- `diminuto_memory_pagesize`, `Diminuto/src/diminuto_memory.c:27-66`: the size and the method, a character of `Diminuto/inc/com/diag/diminuto/diminuto_memory.h:39-45`. -/
def pagesize (w : Pages) : Int × Nat :=
  match w.explicit with
  | some n => if n > 0 then (n, 'E'.toNat) else rest
  | none => rest
where
  /-- What is done where there is no explicit size, `Diminuto/src/diminuto_memory.c:41-57`. -/
  rest : Int × Nat :=
    if w.sysconf > 0 then (w.sysconf, 'C'.toNat)
    else if w.getpagesize > 0 then (w.getpagesize, 'G'.toNat)
    else (4096, 'I'.toNat)

/-- A file: it cannot be opened; or it can, and `fscanf(3)` finds a number or not, and `fclose(3)` succeeds or not. -/
inductive File where
  | absent
  | present (number : Option Int) (closes : Bool)
deriving DecidableEq

/-- The same for lines: an explicit size if there is one, `sysconf(3)`, and the files of `SYS_LINE_SIZE`, `Diminuto/src/diminuto_memory.c:22-25`. -/
structure Lines where
  explicit : Option Int
  sysconf : Int
  files : List File
deriving DecidableEq

/-- The variables, and the number of streams that have been opened and not been passed to `fclose(3)`. -/
structure Vars where
  linesize : Int
  method : Nat
  leaked : Nat
deriving DecidableEq

/-- The loop over the files, `Diminuto/src/diminuto_memory.c:95-114`, from the index. -/
def loop : List File → Nat → Vars → Vars
  | [], _, v => v
  | .absent :: fs, ii, v => loop fs (ii + 1) v
  | .present none _ :: fs, ii, v => loop fs (ii + 1) { v with leaked := v.leaked + 1 }
  | .present (some n) false :: fs, ii, v => loop fs (ii + 1) { v with linesize := n }
  | .present (some n) true :: fs, ii, v => if n > 0 then { v with linesize := n, method := 'n'.toNat + ii } else loop fs (ii + 1) { v with linesize := n }

/-- What is done where there is no explicit size, `Diminuto/src/diminuto_memory.c:85-121`. -/
def search (w : Lines) : Vars :=
  if w.sysconf > 0 then ⟨w.sysconf, 'c'.toNat, 0⟩
  else
    let v := loop w.files 0 ⟨w.sysconf, '?'.toNat, 0⟩
    if v.linesize > 0 then v else ⟨64, 'i'.toNat, v.leaked⟩

/-- `diminuto_memory_linesize`, `Diminuto/src/diminuto_memory.c:68-130`; the method is a character of `Diminuto/inc/com/diag/diminuto/diminuto_memory.h:51-58`. -/
def linesize (w : Lines) : Vars :=
  match w.explicit with
  | some n => if n > 0 then ⟨n, 'e'.toNat, 0⟩ else search w
  | none => search w

end Diminuto.Memorysize
