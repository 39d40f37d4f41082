import Verif.Mux

/-!
# Specification: the multiplexer
-/

namespace Diminuto.Mux

/-- Which descriptors are registered in which sets. -/
abbrev Regs := Kind → Nat → Bool

/-- The descriptor is one that can be registered. -/
def Valid (fd : Int) : Prop := 0 ≤ fd ∧ fd < 1024

instance decValid (fd : Int) : Decidable (Valid fd) := inferInstanceAs (Decidable (_ ∧ _))

/-- What a call does to the registrations. -/
def regsAfter (g : Regs) : Op → Regs
  | .register k fd => if Valid fd then (fun j i => if j = k ∧ i = fd.toNat then true else g j i) else g
  | .unregister k fd => if Valid fd then (fun j i => if j = k ∧ i = fd.toNat then false else g j i) else g
  | .close fd _ => if Valid fd then (fun j i => if i = fd.toNat then false else g j i) else g
  | .wait _ _ => g
  | .ready _ => g

/-- What a sequence of calls does. -/
def regsRun (g : Regs) : List Op → Regs
  | [] => g
  | op :: ops => regsRun (regsAfter g op) ops

/-- `min` and `max` are the least and the greatest element of a set, if there are any. -/
def Bounds (f : Nat → Bool) (min max : Int) : Prop :=
  (∀ i, f i = true → min ≤ i ∧ (i : Int) ≤ max) ∧
  ((∃ i, f i = true) → (∃ i, f i = true ∧ min = (i : Int)) ∧ (∃ i, f i = true ∧ max = (i : Int))) ∧
  ((∀ i, f i = false) → min = 2147483647 ∧ max = -2147483648)

/-- No descriptor is in two sets that share a bit. -/
def Disjoint (g : Regs) : Prop := ∀ i, ¬ (g .read i = true ∧ g .accept i = true) ∧ ¬ (g .urgent i = true ∧ g .interrupt i = true)

/-- No descriptor ever is. -/
def Apart (g : Regs) : List Op → Prop
  | [] => True
  | op :: ops => Disjoint (regsAfter g op) ∧ Apart (regsAfter g op) ops

/-- The numbers from `n` to `b`, and then those from `a` to `n - 1`. -/
def around (a b n : Nat) : List Nat := List.range' n (b + 1 - n) ++ List.range' a (n - a)

/-- The descriptors that are registered and ready, in the order of their numbers beginning with the next one. -/
def order (s : FdSet) : List Nat :=
  if s.next < 0 then [] else (around s.min.toNat s.max.toNat s.next.toNat).filter fun i => s.ready i && s.active i

/-- No descriptor that is ready, but not registered in this set, is between descriptors of this set. -/
def Clean (s : FdSet) : Prop := ∀ i : Nat, s.ready i = true → s.min ≤ i → (i : Int) ≤ s.max → s.active i = true

/-- What a number of calls of a ready function returns. -/
def drain (s : FdSet) : Nat → Option (List Int)
  | 0 => some []
  | n + 1 => (setReady s).bind fun r => (drain r.1 n).bind fun l => some (r.2 :: l)

/-- The descriptors that the kernel reports for a set. -/
def chosen (k : Kind) (r w x : Nat → Bool) : Nat → Bool :=
  match k with
  | .read => r
  | .accept => r
  | .write => w
  | .urgent => x
  | .interrupt => x

/-- The set whose descriptors are examined together with those of a set. -/
def sibling : Kind → Option Kind
  | .read => some .accept
  | .accept => some .read
  | .write => none
  | .urgent => some .interrupt
  | .interrupt => some .urgent

end Diminuto.Mux
