import Verif.Poll
import Verif.MuxSpec

/-!
# Specification: the poller
-/

namespace Diminuto.Poll

open Diminuto.Mux (Kind Regs Valid)

/-- The descriptor is registered in any of the sets. -/
def any (g : Regs) (i : Nat) : Bool := g .read i || g .write i || g .accept i || g .urgent i || g .interrupt i

/-- What a call does to the registrations. -/
def regsAfter (g : Regs) : Op → Regs
  | .register k fd => if Valid fd then (fun j i => if j = k ∧ i = fd.toNat then true else g j i) else g
  | .unregister k fd => if Valid fd then (fun j i => if j = k ∧ i = fd.toNat then false else g j i) else g
  | .close fd _ => if Valid fd then (fun j i => if i = fd.toNat then false else g j i) else g
  | .wait _ _ _ => g
  | .ready _ => g

/-- What a sequence of calls does. -/
def regsRun (g : Regs) : List Op → Regs
  | [] => g
  | op :: ops => regsRun (regsAfter g op) ops

/-- A registered descriptor has been closed, and since then no descriptor has been registered or unregistered. -/
def closedAfter (g : Regs) (s : Bool) : Op → Bool
  | .register k fd => if Valid fd ∧ g k fd.toNat = false then false else s
  | .unregister k fd => if Valid fd ∧ g k fd.toNat = true then false else s
  | .close fd _ => if Valid fd ∧ any g fd.toNat = true then true else s
  | .wait _ _ _ => s
  | .ready _ => s

/-- The same for a sequence of calls. -/
def closedRun (g : Regs) (s : Bool) : List Op → Bool
  | [] => s
  | op :: ops => closedRun (regsAfter g op) (closedAfter g s op) ops

/-- A wait at this time is fine: no registered descriptor has just been closed, or no descriptor is registered any more. -/
def WaitOk (g : Regs) (s : Bool) : Op → Prop
  | .wait _ _ _ => s = false ∨ ∀ i, any g i = false
  | _ => True

/-- Every wait is. -/
def Fresh (g : Regs) (s : Bool) : List Op → Prop
  | [] => True
  | op :: ops => WaitOk g s op ∧ Fresh (regsAfter g op) (closedAfter g s op) ops

/-- The condition that a set is about. -/
def holds (k : Kind) (c : Cond) : Bool :=
  match k with
  | .read => c.inp
  | .accept => c.inp
  | .write => c.out
  | .urgent => c.pri
  | .interrupt => c.pri

/-- Something is to be reported of this descriptor. -/
def due (g : Regs) (c : Nat → Cond) (i : Nat) : Bool :=
  any g i && ((c i).err || (g .read i && (c i).inp) || (g .write i && (c i).out) || (g .accept i && (c i).inp) || (g .urgent i && (c i).pri) ||
    (g .interrupt i && (c i).pri))

/-- The number of descriptors of which something is to be reported. -/
def dues (g : Regs) (c : Nat → Cond) : Nat := ((List.range 1024).filter (due g c)).length

/-- Between descriptors of a set there is none of the other set that has the same condition. -/
def Separate (g : Regs) : Prop :=
  ∀ k j, Mux.sibling k = some j → ∀ a b i, g k a = true → g k b = true → g j i = true → a ≤ i → i ≤ b → g k i = true

/-- This is so, and there is memory, at every wait. -/
def Safe (g : Regs) : List Op → Prop
  | [] => True
  | op :: ops => (∀ f a e, op = .wait f a e → a = true ∧ Separate g) ∧ Safe (regsAfter g op) ops

end Diminuto.Poll
