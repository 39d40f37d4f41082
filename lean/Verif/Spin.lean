import Verif.Section

/-!
# Model of the Serialized Section feature

The bodies and the threads are those of `Verif/Section.lean`; instead of the mutex there is a variable that is tested and set.
-/

namespace Diminuto.Spin
open Section (Body Thread)

/-- The process: its threads, the lock (`diminuto_spinlock_t`, an `int`), and the state that it protects. -/
structure Sys (σ A L R : Type) where
  threads : Nat → Thread A L R
  lock : Int
  world : σ

variable {σ A L R : Type}

/-- The process with another thread. -/
def Sys.put (x : Sys σ A L R) (t : Nat) (th : Thread A L R) (lock : Int) (world : σ) : Sys σ A L R :=
  ⟨fun u => if u = t then th else x.threads u, lock, world⟩

/-- A step of a thread, `Diminuto/inc/com/diag/diminuto/diminuto_serializedsection.h:36-75`. -/
inductive Step (m : Body σ A L R) (x : Sys σ A L R) : Sys σ A L R → Prop where
  /-- `__sync_lock_test_and_set` returns zero, `:40` and `:60`, and the section is entered. -/
  | enter (t : Nat) (b : Bool) (a : A) (rest : List (Bool × A)) (results : List (Option R)) (h : x.threads t = ⟨(b, a) :: rest, none, results, false⟩) (hl : x.lock = 0) :
      Step m x (x.put t ⟨rest, some (b, a, .inl (m.init a)), results, false⟩ 1 x.world)
  /-- In `BEGIN` it returns something else, and it is called again, `:40`. -/
  | spin (t : Nat) (a : A) (rest : List (Bool × A)) (results : List (Option R)) (h : x.threads t = ⟨(false, a) :: rest, none, results, false⟩) (hl : x.lock ≠ 0) :
      Step m x (x.put t ⟨(false, a) :: rest, none, results, false⟩ 1 x.world)
  /-- In `TRY` it returns something else, `:60`, and the section is not entered. -/
  | busy (t : Nat) (a : A) (rest : List (Bool × A)) (results : List (Option R)) (h : x.threads t = ⟨(true, a) :: rest, none, results, false⟩) (hl : x.lock ≠ 0) :
      Step m x (x.put t ⟨rest, none, results ++ [none], false⟩ 1 x.world)
  /-- One step of the body. -/
  | body (t : Nat) (b : Bool) (a : A) (l : L) (todo : List (Bool × A)) (results : List (Option R)) (h : x.threads t = ⟨todo, some (b, a, .inl l), results, false⟩) :
      Step m x (x.put t ⟨todo, some (b, a, (m.step l x.world).1), results, false⟩ x.lock (m.step l x.world).2)
  /-- `__sync_lock_release`, `:72`. -/
  | release (t : Nat) (b : Bool) (a : A) (r : R) (todo : List (Bool × A)) (results : List (Option R)) (h : x.threads t = ⟨todo, some (b, a, .inr r), results, false⟩) :
      Step m x (x.put t ⟨todo, none, results ++ [some r], false⟩ 0 x.world)
  /-- The thread is cancelled in the body, and there is no cleanup handler. -/
  | cancel (t : Nat) (b : Bool) (a : A) (l : L) (todo : List (Bool × A)) (results : List (Option R)) (h : x.threads t = ⟨todo, some (b, a, .inl l), results, false⟩) :
      Step m x (x.put t ⟨todo, none, results, true⟩ x.lock x.world)

end Diminuto.Spin
