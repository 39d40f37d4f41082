import Verif.Pool
import Verif.WellLemmas

/-!
# Specification: the Pool
-/

namespace Diminuto.Pool

open Diminuto.DList Diminuto.Well

variable {N : Nat}

/-- What a node is for. -/
inductive Kind
  | pool
  | object
  | other
  deriving DecidableEq

/-- The specification: the queue of every pool, and the pool that every allocated object is from. -/
structure View (N : Nat) where
  queue : Fin N → List (Fin N)
  owner : Fin N → Option (Fin N)

/-- The application has the object: it is allocated and in no pool. -/
def View.Held (v : View N) (n : Fin N) : Prop := v.owner n ≠ none ∧ ∀ p, n ∉ v.queue p

/-- What a call requires, and what it does and returns: allocation takes the first of the
queue, and calls `malloc` only if there is none, which returns an object that is not
allocated; freeing puts an object that is held last in the queue of the pool that it is from; finishing a pool
gives the objects in it back to the heap; putting an object that is held on a list of the application changes
nothing. -/
inductive View.Step (kind : Fin N → Kind) : View N → Op N → View N → Option (Fin N) → Prop
  | take {v : View N} {p n : Fin N} {q : List (Fin N)} {m : Option (Fin N)} (hp : kind p = .pool)
      (hq : v.queue p = n :: q) :
      Step kind v (.alloc p m) { v with queue := fun x => if x = p then q else v.queue x } (some n)
  | fail {v : View N} {p : Fin N} (hp : kind p = .pool) (hq : v.queue p = []) :
      Step kind v (.alloc p none) v none
  | grow {v : View N} {p n : Fin N} (hp : kind p = .pool) (hq : v.queue p = []) (hk : kind n = .object)
      (ho : v.owner n = none) :
      Step kind v (.alloc p (some n)) { v with owner := fun x => if x = n then some p else v.owner x } (some n)
  | free {v : View N} {p n : Fin N} (ho : v.owner n = some p) (hh : v.Held n) :
      Step kind v (.free n) { v with queue := fun x => if x = p then v.queue p ++ [n] else v.queue x } none
  | fini {v : View N} {p : Fin N} (hp : kind p = .pool) :
      Step kind v (.fini p)
        { queue := fun x => if x = p then [] else v.queue x
          owner := fun x => if x ∈ v.queue p then none else v.owner x } none
  | link {v : View N} {r n : Fin N} (hr : kind r = .other ∨ v.Held r) (hh : v.Held n) :
      Step kind v (.link r n) v none

/-- A history. -/
inductive View.Run (kind : Fin N → Kind) : View N → List (Op N) → View N → List (Option (Fin N)) → Prop
  | nil {v : View N} : Run kind v [] v []
  | cons {v v1 v2 : View N} {o : Op N} {os : List (Op N)} {r : Option (Fin N)} {rs : List (Option (Fin N))}
      (h : View.Step kind v o v1 r) (t : View.Run kind v1 os v2 rs) : Run kind v (o :: os) v2 (r :: rs)

/-- Nothing in the pools, nothing allocated. -/
def View.start (N : Nat) : View N := ⟨fun _ => [], fun _ => none⟩

end Diminuto.Pool
