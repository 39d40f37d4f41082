import Verif.Fletcher

/-!
# Model of the Uninterruptible Section feature
-/

namespace Diminuto.Mask

/-- A thread: the signals that it blocks, those of them that are pending, and those that it has handled. -/
structure State where
  mask : Nat → Bool
  pending : Nat → Bool
  handled : List Nat

/-- The thread gets another mask: neither SIGKILL, 9, nor SIGSTOP, 19, can be blocked, and the pending signals that are not blocked any more are handled, the lowest ones first.
`pthread_sigmask(3)` as called at `Diminuto/src/diminuto_uninterruptiblesection.c:33` and `:49`; it does not fail for these arguments. -/
def setmask (m : Nat → Bool) (s : State) : State :=
  let m := fun n => m n && decide (n ≠ 9) && decide (n ≠ 19)
  { mask := m, pending := fun n => s.pending n && m n, handled := s.handled ++ (List.range 65).filter fun n => s.pending n && !m n }

/-- A signal arrives. -/
def send (n : Nat) (s : State) : State :=
  if s.mask n then { s with pending := fun k => k = n || s.pending k } else { s with handled := s.handled ++ [n] }

/-- `sigaddset(3)` of the GNU C library: the signals are 1 to 64, and it keeps 32 and 33 for itself. -/
def valid (n : Int) : Bool := 1 ≤ n && n ≤ 64 && n ≠ 32 && n ≠ 33

/-- The loop that adds the signals to a set, `Diminuto/src/diminuto_uninterruptiblesection.c:25-29`. -/
def add : List Int → (Nat → Bool) → Option (Nat → Bool)
  | [], set => some set
  | n :: rest, set => if valid n then add rest (fun k => decide ((k : Int) = n) || set k) else none

/-- `diminuto_uninterruptiblesection_block`, `Diminuto/src/diminuto_uninterruptiblesection.c:17-43`, which stores the previous mask, the second of the results. -/
def block (signals : List Int) (s : State) : Option (State × (Nat → Bool)) :=
  match add signals (fun _ => false) with
  | none => none
  | some set => some (setmask (fun n => s.mask n || set n) s, s.mask)

/-- What a thread does. -/
inductive Prog where
  | nop
  | seq (p q : Prog)
  /-- A signal arrives at this point. -/
  | send (n : Nat)
  /-- The thread itself changes its mask. -/
  | mask (m : Nat → Bool)
  /-- The thread is cancelled. -/
  | cancel
  /-- `DIMINUTO_UNINTERRUPTIBLE_SECTION_BEGIN` to `END`. -/
  | sect (signals : List Int) (p : Prog)
  /-- `DIMINUTO_UNINTERRUPTIBLE_SECTION_TRY` to `END`. -/
  | attempt (signals : List Int) (p : Prog)

/-- The program is executed; with the state comes whether the thread has been cancelled, when the cleanup handlers are executed in the opposite order.  The result `none` is the failure of the contract in
`BEGIN`.  `Diminuto/inc/com/diag/diminuto/diminuto_uninterruptiblesection.h:44-82`. -/
def run : Prog → State → Option (State × Bool)
  | .nop, s => some (s, false)
  | .seq p q, s => (run p s).bind fun r => if r.2 then some r else run q r.1
  | .send n, s => some (Mask.send n s, false)
  | .mask m, s => some (setmask m s, false)
  | .cancel, s => some (s, true)
  | .sect signals p, s => (block signals s).bind fun b => (run p b.1).map fun r => (setmask b.2 r.1, r.2)
  | .attempt signals p, s =>
    match block signals s with
    | none => some (s, false)
    | some b => (run p b.1).map fun r => (setmask b.2 r.1, r.2)

end Diminuto.Mask
