import Verif.LineRequest
import Verif.FdSpec

/-!
# Specification: the use of GPIO lines
-/

namespace Diminuto.LineRequest

/-- What the kernel is to be asked for: these lines in this order, all with these flags, and all debounced if a time is given; the consumer is as much of the string as fits. -/
structure Asks (q : Request) (consumer : List Byte) (lines : List (BitVec 32)) (flags : BitVec 64) (useconds : BitVec 32) : Prop where
  number : q.numLines.toNat = lines.length
  size : q.offsets.length = 64
  offsets : ∀ (i : Nat) l, lines[i]? = some l → q.offsets[i]? = some l
  others : ∀ i : Nat, lines.length ≤ i → i < 64 → q.offsets[i]? = some 0#32
  flags : q.flags = flags
  plain : useconds = 0#32 → q.debounce = none
  debounced : useconds ≠ 0#32 → ∃ m, q.debounce = some (m, useconds) ∧ ∀ i, m.getLsbD i = decide (i < lines.length)
  label : q.consumer.length = 32 ∧ ((0#8 ∉ consumer) → q.consumer.takeWhile (· ≠ 0#8) = consumer.take 31)

/-- There are at least one and at most 63 lines, and their offsets are at most 63. -/
def Admissible (lines : List (BitVec 32)) : Prop := 1 ≤ lines.length ∧ lines.length ≤ 63 ∧ ∀ l ∈ lines, l.toNat ≤ 63

/-- A kernel in which the lines of a descriptor have values. -/
structure Honest {σ : Type} (w : World σ) (values : σ → Int → BitVec 64) : Prop where
  get : ∀ fd m s rc b t, w.getValues fd m s = (some (rc, b), t) → values t = values s ∧ ∀ i, b.getLsbD i = ((values s fd).getLsbD i && m.getLsbD i)
  set : ∀ fd m b s rc t, w.setValues fd m b s = (some rc, t) → (∀ fd', fd' ≠ fd → values t fd' = values s fd') ∧
    ∀ i, (values t fd).getLsbD i = if m.getLsbD i then b.getLsbD i else (values s fd).getLsbD i
  getFailed : ∀ fd m s t, w.getValues fd m s = (none, t) → values t = values s
  setFailed : ∀ fd m b s t, w.setValues fd m b s = (none, t) → values t = values s

end Diminuto.LineRequest
