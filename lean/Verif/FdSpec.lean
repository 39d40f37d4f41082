import Verif.Fd

/-!
# Specification: reading and writing
-/

namespace Diminuto.Fd

/-- The bytes in a reply. -/
def Reply.bytes : Reply → List Byte
  | .got bs => bs
  | _ => []

/-- The bytes in a list of replies. -/
def bytesOf (calls : List (Nat × Reply)) : List Byte := calls.flatMap fun c => c.2.bytes

/-- The bytes in the kernel. -/
def available (k : List Source) : List Byte :=
  k.flatMap fun e => match e with
    | .data bs => bs
    | _ => []

/-- What the system calls of a read look like: each one asks for what is left of the maximum, and is made only if
something is left and, but for the first, the minimum has not been reached; all but
the last have got something; and if the last has, the minimum or the maximum has been reached. -/
def ReadCalls (min max : Nat) (calls : List (Nat × Reply)) : Prop :=
  ∀ pre x post, calls = pre ++ x :: post →
    x.1 = max - (bytesOf pre).length ∧ (bytesOf pre).length < max ∧
    (pre ≠ [] → (bytesOf pre).length < min) ∧
    x.2.bytes.length ≤ x.1 ∧
    (post ≠ [] → x.2.bytes ≠ []) ∧
    (post = [] → x.2.bytes ≠ [] → min ≤ (bytesOf calls).length ∨ (bytesOf calls).length = max)

/-- The number of bytes taken in a reply. -/
def Taken.count : Taken → Nat
  | .took n => n
  | _ => 0

/-- The number of bytes taken in a list of replies. -/
def countOf (calls : List (Nat × Taken)) : Nat := (calls.map fun c => c.2.count).sum

/-- What the system calls of a write look like. -/
def WriteCalls (min max : Nat) (calls : List (Nat × Taken)) : Prop :=
  ∀ pre x post, calls = pre ++ x :: post →
    x.1 = max - countOf pre ∧ countOf pre < max ∧
    (pre ≠ [] → countOf pre < min) ∧
    x.2.count ≤ x.1 ∧
    (post ≠ [] → x.2.count ≠ 0) ∧
    (post = [] → x.2.count ≠ 0 → min ≤ countOf calls ∨ countOf calls = max)

end Diminuto.Fd
