import Verif.Strdup
import Verif.BufferSpec

/-!
# Specification: copies of strings in buffers, the report on a pool, and the choice of the pool
-/

namespace Diminuto.Strdup

open Diminuto.Buffer

/-- What can be read is a string, and perhaps something after its nul. -/
def IsString (mem str : List Byte) : Prop := 0 ∉ str ∧ ∃ rest, mem = str ++ 0 :: rest

/-- The first characters of what can be read, up to `n` or to the nul. -/
def IsPrefix (mem : List Byte) (n : Nat) (str : List Byte) : Prop :=
  0 ∉ str ∧ ((str.length = n ∧ ∃ rest, mem = str ++ rest) ∨ (str.length < n ∧ ∃ rest, mem = str ++ 0 :: rest))

/-- A buffer contains a string and its nul. -/
def Contains (content : Nat → Nat → Byte) (a : Nat) (str : List Byte) : Prop :=
  (∀ i b, str[i]? = some b → content a i = b) ∧ content a str.length = 0

/-- How many bytes the free buffers of a pool have, with their headers. -/
def bytes (v : View) (sizes : List Nat) : Nat :=
  ((List.range sizes.length).map fun c => (v.stack c).length * (sizes.getD c 0 + 8)).sum

/-- Nothing is held, and nothing is in the pool. -/
def View.Clean (v : View) : Prop := (∀ a, v.cap a = none) ∧ ∀ c, v.stack c = []

/-- The calls between two choices of the pool. -/
structure Session where
  pool : Nat
  ops : List Op
  results : List Nat

/-- What the application does in its sessions. -/
def acts : List Session → List Act
  | [] => []
  | x :: xs => .set x.pool :: (x.ops.map .op ++ acts xs)

/-- What is returned. -/
def results : List Session → List Nat
  | [] => []
  | x :: xs => (if x.pool ≠ 0 then 1 else 0) :: (x.results ++ results xs)

/-- In a session the pool is as if it were the only one, and in the end all buffers have been freed and the pool has been emptied. -/
def Session.Good (sizes : Nat → List Nat) (x : Session) : Prop :=
  ∃ v, View.Run (sizes x.pool) View.start x.ops v x.results ∧ View.Clean v

end Diminuto.Strdup
