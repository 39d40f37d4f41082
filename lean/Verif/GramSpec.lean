import Verif.Gram
import Verif.DatagramSpec
import Verif.ScatterGatherSpec

/-!
# Specification: records as datagrams
-/

namespace Diminuto.Gram

variable {N : Nat} {σ : Type}

/-- What a record contains is what is written if it is written. -/
def Contains (s : ScatterGather.State N) (r : Fin N) (l : List Byte) : Prop := ∀ total k, ScatterGather.output total s r (some k) = some (((min k l.length : Nat) : Int), l.take k)

/-- The result of a function that sends a record is that of the system call, and every failure is in the log. -/
def Sends (call : Except Datagram.Errno Nat × σ) (r : Option ((Int × Bool) × σ)) : Prop :=
  (∀ n t, call = (.ok n, t) → r = some (((n : Int), false), t)) ∧ ∀ e t, call = (.error e, t) → r = some ((-1, true), t)

end Diminuto.Gram
