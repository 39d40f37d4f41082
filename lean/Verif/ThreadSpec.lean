import Verif.Thread

/-!
# Specification: the thread object
-/

namespace Diminuto.Thread

/-- What the object is about. -/
inductive Phase where
  /-- There is no thread; the last one, if any, has ended with this value. -/
  | rest (v : Option Nat)
  /-- A thread is going to call the function with this context. -/
  | due (context : Nat)
  /-- A thread is in the function. -/
  | active
  /-- The thread is over. -/
  | over (v : Nat)

/-- What may happen: the function is called once for each start, with its context, not before the thread of the start before is gone; and the value of the thread is what
the function returned. -/
def Phase.next : Phase → Obs → Option Phase
  | .rest _, .started c => some (.due c)
  | .rest _, .notStarted => some (.rest none)
  | .due c, .called c' => if c = c' then some .active else none
  | .due _, .broken => some (.over NOVALUE)
  | .active, .finished v => some (.over v)
  | .over v, .reaped v' => if v = v' then some (.rest (some v)) else none
  | _, .started _ => none
  | _, .notStarted => none
  | _, .called _ => none
  | _, .broken => none
  | _, .finished _ => none
  | _, .reaped _ => none
  | p, _ => some p

/-- The phase after a history that may happen. -/
def Phase.after (p : Phase) : List Obs → Option Phase
  | [] => some p
  | o :: h => (p.next o).bind fun p => p.after h

/-- The caller that is joining, and whether without limit. -/
abbrev Who := Option (Nat × Bool)

/-- There is at most one caller joining at a time, and no start meanwhile. -/
def alone : Who → List Obs → Bool
  | _, [] => true
  | w, .entered c f :: h => w.isNone && alone (some (c, f)) h
  | _, .returned _ _ _ :: h => alone none h
  | w, .started _ :: h => w.isNone && alone w h
  | w, .notStarted :: h => w.isNone && alone w h
  | w, _ :: h => alone w h

/-- A result of a join is right: success with the value of the thread if that has ended, a timeout if there is a limit, and an error if there is no thread and has been
none. -/
def Right (p : Phase) (w : Who) (c : Nat) (rc : Rc) (v : Option Nat) : Prop :=
  match rc with
  | .zero => ∃ x, p = .rest (some x) ∧ v = some x
  | .timedout => w = some (c, false) ∧ v = none
  | .error => p = .rest none ∧ v = none

/-- All results of joins are. -/
def AllRight (p : Phase) (w : Who) : List Obs → Prop
  | [] => True
  | o :: h =>
    (match o with | .returned c rc v => Right p w c rc v | _ => True) ∧
    ∀ p', p.next o = some p' → AllRight p' (match o with | .entered c f => some (c, f) | .returned _ _ _ => none | _ => w) h

/-- The notifications since the last time that they were counted, if each time they were counted rightly. -/
def pending (n : Nat) : List Obs → Option Nat
  | [] => some n
  | .notified :: h => pending (n + 1) h
  | .started _ :: h => pending 0 h
  | .notStarted :: h => pending 0 h
  | .counted m :: h => if m = n then pending 0 h else none
  | _ :: h => pending n h

/-- The thread has ended, or is gone. -/
def Thr.gone : Thr → Prop
  | .ended _ => True
  | .reaped => True
  | _ => False

/-- The number of steps of a caller. -/
def steps (c : Nat) : List Label → Nat
  | [] => 0
  | .caller c' :: ls => (if c' = c then 1 else 0) + steps c ls
  | _ :: ls => steps c ls

/-- The number of steps of a thread. -/
def tsteps (g : Nat) : List Label → Nat
  | [] => 0
  | .thread g' :: ls => (if g' = g then 1 else 0) + tsteps g ls
  | _ :: ls => tsteps g ls

/-- The changes of the state that are permitted. -/
def Edge : State → State → Bool
  | .initialized, .started => true
  | .initialized, .failed => true
  | .joined, .started => true
  | .joined, .failed => true
  | .failed, .started => true
  | .failed, .failed => true
  | .started, .running => true
  | .running, .exiting => true
  | .exiting, .joined => true
  | _, _ => false

/-- The history of an execution. -/
def Run.history : Run → List Obs
  | .ok _ h => h
  | .ub h => h

end Diminuto.Thread
