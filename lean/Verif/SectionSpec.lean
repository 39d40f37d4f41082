import Verif.Section

/-!
# What the Critical Section feature is meant to do
-/

namespace Diminuto.Section

variable {σ A L R : Type}

/-- Several steps of the process. -/
inductive Steps (m : Body σ A L R) (x : Sys σ A L R) : Sys σ A L R → Prop where
  | here : Steps m x x
  | step {y z : Sys σ A L R} : Steps m x y → Step m y z → Steps m x z

/-- The process before any of its threads has entered a section. -/
def start (todo : Nat → List (Bool × A)) (s : σ) : Sys σ A L R := ⟨fun t => ⟨todo t, none, [], false⟩, none, s⟩

/-- Steps of the body, and of nothing else, that do not end it. -/
inductive Part (m : Body σ A L R) (a : A) (s : σ) : L → σ → Prop where
  | nil : Part m a s (m.init a) s
  | more {l l' : L} {p q : σ} : Part m a s l p → m.step l p = (.inl l', q) → Part m a s l' q

/-- The whole body, without any other thread. -/
def Whole (m : Body σ A L R) (a : A) (s : σ) (r : R) (s' : σ) : Prop := ∃ l p, Part m a s l p ∧ m.step l p = (.inr r, s')

/-- What has become of a section. -/
inductive Event (R : Type) where
  /-- It was entered and left, with a result. -/
  | done (r : R)
  /-- It was entered and the thread was cancelled in it. -/
  | cut
  /-- It was not entered. -/
  | skipped

/-- The sections have been executed one after the other. -/
inductive Serial (m : Body σ A L R) (s : σ) : List (Nat × Bool × A × Event R) → σ → Prop where
  | nil : Serial m s [] s
  | done {h : List (Nat × Bool × A × Event R)} {p q : σ} {r : R} (t : Nat) (b : Bool) (a : A) : Serial m s h p → Whole m a p r q → Serial m s (h ++ [(t, b, a, .done r)]) q
  | cut {h : List (Nat × Bool × A × Event R)} {p q : σ} {l : L} (t : Nat) (b : Bool) (a : A) : Serial m s h p → Part m a p l q → Serial m s (h ++ [(t, b, a, .cut)]) q
  | skipped {h : List (Nat × Bool × A × Event R)} {p : σ} (t : Nat) (a : A) : Serial m s h p → Serial m s (h ++ [(t, true, a, .skipped)]) p

/-- The results of a thread according to a history. -/
def told (t : Nat) (h : List (Nat × Bool × A × Event R)) : List (Option R) :=
  h.filterMap fun e => if e.1 = t then (match e.2.2.2 with | .done r => some (some r) | .cut => none | .skipped => some none) else none

/-- The sections of a thread according to a history. -/
def asked (t : Nat) (h : List (Nat × Bool × A × Event R)) : List (Bool × A) := h.filterMap fun e => if e.1 = t then some (e.2.1, e.2.2.1) else none

/-- The sum of what the sections that have been left should have added. -/
def sum : List (Nat × Bool × Int × Event Int) → Int
  | [] => 0
  | (_, _, a, .done _) :: h => a + sum h
  | _ :: h => sum h

end Diminuto.Section
