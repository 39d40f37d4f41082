import Verif.Fletcher

/-!
# Model of the Critical Section and the Atomic Apply features

`Diminuto/inc/com/diag/diminuto/diminuto_criticalsection.h:44-85`, `Diminuto/src/diminuto_criticalsection.c:15-56`, and `Diminuto/src/diminuto_atomicapply.c:16-25`.  The body of a section is any
program, which makes its steps one by one; between them any other thread may make a step.  Locking a mutex that has been initialised does not fail, so that the contract in
`DIMINUTO_CRITICAL_SECTION_BEGIN` holds.  A thread locks a mutex that it does not hold (the body of the Log feature that does otherwise is in `Verif/Log.lean`), and the body does not block.
-/

namespace Diminuto.Section

/-- The body of a section: it begins with its argument, and each step changes the shared state and ends it or not.  `(*functorp)(sharedp, contextp)`, `Diminuto/src/diminuto_atomicapply.c:21`. -/
structure Body (σ A L R : Type) where
  init : A → L
  step : L → σ → (L ⊕ R) × σ

/-- A thread: the sections that it will enter, whether they begin with `TRY`, and their arguments; the one that it is in; the results of those that it has left, of which `none` is that of one that
it did not enter. -/
structure Thread (A L R : Type) where
  todo : List (Bool × A)
  running : Option (Bool × A × (L ⊕ R))
  results : List (Option R)
  cancelled : Bool

/-- The process: its threads, the one that holds the mutex, and the state that the mutex protects. -/
structure Sys (σ A L R : Type) where
  threads : Nat → Thread A L R
  holder : Option Nat
  world : σ

variable {σ A L R : Type}

/-- The process with another thread. -/
def Sys.put (x : Sys σ A L R) (t : Nat) (th : Thread A L R) (holder : Option Nat) (world : σ) : Sys σ A L R :=
  ⟨fun u => if u = t then th else x.threads u, holder, world⟩

/-- A step of a thread, `Diminuto/inc/com/diag/diminuto/diminuto_criticalsection.h:44-85`. -/
inductive Step (m : Body σ A L R) (x : Sys σ A L R) : Sys σ A L R → Prop where
  /-- `BEGIN` or `TRY` locks the mutex. -/
  | lock (t : Nat) (b : Bool) (a : A) (rest : List (Bool × A)) (results : List (Option R)) (h : x.threads t = ⟨(b, a) :: rest, none, results, false⟩) (hh : x.holder = none) :
      Step m x (x.put t ⟨rest, some (b, a, .inl (m.init a)), results, false⟩ (some t) x.world)
  /-- `TRY` does not, because it is locked (`EBUSY`), and the section is not entered. -/
  | busy (t : Nat) (a : A) (rest : List (Bool × A)) (results : List (Option R)) (h : x.threads t = ⟨(true, a) :: rest, none, results, false⟩) (hh : x.holder ≠ none) :
      Step m x (x.put t ⟨rest, none, results ++ [none], false⟩ x.holder x.world)
  /-- One step of the body. -/
  | body (t : Nat) (b : Bool) (a : A) (l : L) (todo : List (Bool × A)) (results : List (Option R)) (h : x.threads t = ⟨todo, some (b, a, .inl l), results, false⟩) :
      Step m x (x.put t ⟨todo, some (b, a, (m.step l x.world).1), results, false⟩ x.holder (m.step l x.world).2)
  /-- `END` unlocks the mutex. -/
  | unlock (t : Nat) (b : Bool) (a : A) (r : R) (todo : List (Bool × A)) (results : List (Option R)) (h : x.threads t = ⟨todo, some (b, a, .inr r), results, false⟩) :
      Step m x (x.put t ⟨todo, none, results ++ [some r], false⟩ none x.world)
  /-- The thread is cancelled in the body; `diminuto_criticalsection_cleanup` unlocks the mutex. -/
  | cancel (t : Nat) (b : Bool) (a : A) (l : L) (todo : List (Bool × A)) (results : List (Option R)) (h : x.threads t = ⟨todo, some (b, a, .inl l), results, false⟩) :
      Step m x (x.put t ⟨todo, none, results, true⟩ none x.world)

/-- A functor for Atomic Apply that adds to the shared variable and returns what was there: it loads the variable, and stores the sum in a later step.  (An example of a caller of
`Diminuto/src/diminuto_atomicapply.c:16-25`.) -/
def adder : Body Int Int (Int × Option Int) Int where
  init a := (a, none)
  step l s :=
    match l with
    | (a, none) => (.inl (a, some s), s)
    | (a, some v) => (.inr v, v + a)

end Diminuto.Section
