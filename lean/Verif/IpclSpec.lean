import Verif.Ipcl
import Verif.CanonicalSpec

/-!
# Specification: the paths and addresses of local sockets
-/

namespace Diminuto.Ipcl

/-- A buffer holds a string. -/
def Holds (b s : List Byte) : Prop := 0#8 ∉ s ∧ ∃ t, b = s ++ 0#8 :: t

/-- A directory and a file in it. -/
def below (dir file : List Byte) : List Byte := if dir.getLast? = some 47#8 then dir ++ file else dir ++ 47#8 :: file

/-- The socket that a path stands for: a file, which is named, in a directory, which exists; the canonical path must not be longer than allowed. -/
def Names (realpath : List Byte → Option (List Byte)) (p s : List Byte) : Prop :=
  ∃ dir file pre, Canonical.Splits p dir file ∧ file ≠ [] ∧ realpath dir = some pre ∧ 1 + pre.length + file.length < 255 ∧ s = below pre file

/-- The order of strings: that of a dictionary with the byte values as alphabet. -/
inductive Less : List Byte → List Byte → Prop
  | nil {b : Byte} {t : List Byte} : Less [] (b :: t)
  | head {a b : Byte} {s t : List Byte} : a.toNat < b.toNat → Less (a :: s) (b :: t)
  | tail {a : Byte} {s t : List Byte} : Less s t → Less (a :: s) (a :: t)

/-- `realpath(3)`: paths that it returns are absolute and have no NUL. -/
def Absolute (realpath : List Byte → Option (List Byte)) : Prop := ∀ p q, realpath p = some q → 0#8 ∉ q ∧ ∃ r, q = 47#8 :: r

end Diminuto.Ipcl
