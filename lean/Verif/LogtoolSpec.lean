import Verif.Logtool

/-!
# Specification: the tool that logs its arguments or its standard input
-/

namespace Diminuto.Logtool

/-- The level that has been asked for last, if any has. -/
def level (opts : List Option') : Option (Fin 8) := (opts.filterMap fun | .level n => some n | _ => none).getLast?

/-- The size of the buffer: what has been asked for last, or else 256. -/
def size (opts : List Option') : BitVec 64 := ((opts.filterMap fun | .size n => some n | _ => none).getLast?).getD 256

/-- Whether messages of a level are wanted: the most urgent one is the highest of the eight bits of the mask. -/
def Wanted (mask : BitVec 32) (n : Fin 8) : Prop := mask.toNat / 2 ^ (7 - n.val) % 2 = 1

/-- Whether what the tool is given is to be logged: always, if that has been asked for; or if messages of the level are wanted; or, if no level has been asked for, if those of any level up to that of a notice are, although a notice is what is logged. -/
def Logs (mask : BitVec 32) (opts : List Option') : Prop :=
  .unconditional ∈ opts ∨ match level opts with
    | some n => Wanted mask n
    | none => ∃ n : Fin 8, n.val ≤ 5 ∧ Wanted mask n

/-- The priority of what is logged: that of the level, or else that of a notice. -/
def priority (opts : List Option') : Nat := ((level opts).getD 5).val

/-- The messages among the arguments. -/
def messages (args : List (List Byte)) : List (List Byte) := args.filter (· ≠ [])

/-- The bytes in pieces, each of which ends with the end of a line, or is as long as there is room for, or is the last one. -/
inductive Pieces (room : Nat) : List Byte → List (List Byte) → Prop where
  | done : Pieces room [] []
  | piece (l rest : List Byte) (ps : List (List Byte)) (some_ : l ≠ []) (inside : 10#8 ∉ l.dropLast) (short : l.length ≤ room) (ends : l.getLast? = some 10#8 ∨ l.length = room ∨ rest = []) (more : Pieces room rest ps) :
      Pieces room (l ++ rest) (l :: ps)

/-- Lines: all of them end with a newline, but for the last one, which need not. -/
inductive Lines : List (List Byte) → Prop where
  | done : Lines []
  | last (l : List Byte) (some_ : l ≠ []) (inside : 10#8 ∉ l) : Lines [l]
  | line (l : List Byte) (ls : List (List Byte)) (inside : 10#8 ∉ l) (more : Lines ls) : Lines ((l ++ [10#8]) :: ls)

end Diminuto.Logtool
