import Verif.Interfaces

/-!
# Specification: interfaces and their addresses
-/

namespace Diminuto.Interfaces

/-- The names of the interfaces; only the first 255 characters count. -/
def names (l : List Entry) : List (List Byte) := l.filterMap fun e => e.name.map (·.take 255)

/-- Every element once, where it is first. -/
def firsts : List (List Byte) → List (List Byte)
  | [] => []
  | a :: l => a :: (firsts l).filter (· ≠ a)

/-- Names are strings. -/
def Strings (l : List Entry) : Prop := ∀ e ∈ l, ∀ n, e.name = some n → 0#8 ∉ n

/-- The IPv4 addresses of an interface, in order. -/
def addresses4 (i : List Byte) (l : List Entry) : List (BitVec 32) :=
  l.filterMap fun e => match e.address with
    | some (.inet a) => if e.name.map (·.take 255) = some (i.take 255) then some a else none
    | _ => none

/-- The IPv6 addresses of an interface, in order. -/
def addresses6 (i : List Byte) (l : List Entry) : List (BitVec 128) :=
  l.filterMap fun e => match e.address with
    | some (.inet6 a) => if e.name.map (·.take 255) = some (i.take 255) then some a else none
    | _ => none

/-- What the caller reads from an array: all up to the entry that is zero. -/
def Reads {α : Type} [OfNat α 0] (array l : List α) : Prop := (∀ a ∈ l, a ≠ 0) ∧ ∃ rest, array = l ++ 0 :: rest

end Diminuto.Interfaces
