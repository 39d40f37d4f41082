import Verif.Lock

/-!
# Specification: the Lock
-/

namespace Diminuto.Lock

/-- The specification: an atomic object that holds nothing or some bytes.  What each act does to it; `none` if
the act is not allowed. -/
def Act.spec (text : Nat → List Byte) : Act → Option (List Byte) → Option (Option (List Byte))
  | .locked p, none => some (some (text p))
  | .prelocked _, none => some (some [])
  | .postlocked p, some _ => some (some (text p))
  | .filed p, _ => some (some (text p))
  | .unlocked _, some _ => some none
  | .exists_ _, some c => some (some c)
  | .absent _, none => some none
  | .error _, c => some c
  | _, _ => none

/-- A history of acts, the last first. -/
def history (text : Nat → List Byte) : List Act → Option (Option (List Byte))
  | [] => some none
  | a :: as => (history text as).bind (a.spec text)

/-- The name that `mkstemp` finds is not one that another call is still going to use. -/
def Fresh (s : State) : Event → Prop
  | .mkstemp _ t => ∀ q, (s.pc q).name ≠ some t
  | _ => True

/-- Executions in which `mkstemp` always finds such a name. -/
inductive Run (text : Nat → List Byte) : State → List Event → State → Prop
  | nil {s : State} : Run text s [] s
  | snoc {s s1 s2 : State} {es : List Event} {e : Event} (h : Run text s es s1) (hf : Fresh s1 e)
      (hs : step text s1 e = some s2) : Run text s (es ++ [e]) s2

/-- The act acquires the lock. -/
def Act.acquires : Act → Bool
  | .locked _ => true
  | .prelocked _ => true
  | _ => false

/-- The act releases the lock. -/
def Act.releases : Act → Bool
  | .unlocked _ => true
  | _ => false

/-- The process that did something. -/
def Act.who : Act → Nat
  | .locked p => p
  | .prelocked p => p
  | .postlocked p => p
  | .filed p => p
  | .unlocked p => p
  | .exists_ p => p
  | .absent p => p
  | .lost p => p
  | .error p => p

/-- Whether it succeeded. -/
def Act.success : Act → Bool
  | .locked _ => true
  | .prelocked _ => true
  | .postlocked _ => true
  | .filed _ => true
  | .unlocked _ => true
  | _ => false

/-- The latest act of a process. -/
def latest (p : Nat) (l : List Act) : Option Act := l.find? (fun a => a.who == p)

/-- The events of a call without errors, of which `mkstemp` finds the name `t`. -/
def whole (p : Nat) (k : Kind) (t n : Nat) : List Event :=
  [.call p k, .mkstemp p t, .write p n, .fclose p, .rename p, .unlinkTemp p]

end Diminuto.Lock
