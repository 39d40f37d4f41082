import Verif.Canonical

/-!
# Specification: path canonicalisation (C49)
-/

namespace Diminuto.Canonical

/-- The specification: the directory and the file of a path are separated by its last slash. -/
inductive Splits : List Byte → List Byte → List Byte → Prop where
  /-- There is no slash. -/
  | plain (file : List Byte) : 47#8 ∉ file → Splits file [46#8] file
  /-- There is no file. -/
  | directory (dir file : List Byte) : 47#8 ∉ file → (file = [] ∨ file = [46#8] ∨ file = [46#8, 46#8]) → dir ≠ [] →
      Splits (dir ++ 47#8 :: file) (dir ++ 47#8 :: file) []
  /-- There are both. -/
  | nominal (dir file : List Byte) : 47#8 ∉ file → ¬ (file = [] ∨ file = [46#8] ∨ file = [46#8, 46#8]) → dir ≠ [] →
      Splits (dir ++ 47#8 :: file) (dir ++ [47#8]) file

/-- A path right below the root. -/
def Root (path : List Byte) : Prop := ∃ file, 47#8 ∉ file ∧ path = 47#8 :: file

/-- What is to be done: the canonical directory, and the file. -/
def expected (realpath : List Byte → Option (List Byte)) (dir file : List Byte) (size : Nat) : Outcome :=
  match realpath dir with
  | none => .failure
  | some pre =>
    if size ≤ 1 + pre.length + file.length then .failure
    else .success ((if pre.getLast? = some 47#8 then pre else pre ++ [47#8]) ++ file)

end Diminuto.Canonical
