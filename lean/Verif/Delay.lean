import Verif.Time

/-!
# Model of the Delay feature

`diminuto_delay`, `Diminuto/src/diminuto_delay.c:21-52`.  `nanosleep(2)` is an arbitrary function of a state.  The loop ends only when that call is no longer interrupted; here it ends, with the
outcome `sleeping`, also when a given number of calls has been made.  The value of `errno` is left out except for `EINTR`.
-/

namespace Diminuto.Delay
open Time (chk ticks2wholeseconds ticks2fractionalseconds seconds2ticks)

/-- `struct timespec`; both members are signed and have 64 bits. -/
structure Timespec where
  sec : Int
  nsec : Int
deriving DecidableEq, Repr

/-- What `nanosleep(2)` does: it returns zero; it fails with `EINTR` and stores what remains; or it fails otherwise and stores nothing. -/
inductive Answer where
  | done
  | interrupted (remaining : Timespec)
  | failed
deriving DecidableEq, Repr

/-- The system call that is used. -/
structure World (σ : Type) where
  nanosleep : Timespec → σ → Answer × σ

/-- What a delay does: it returns a number of ticks, it still sleeps, or its behaviour is undefined because a computation overflows. -/
inductive Outcome where
  | returned (ticks : BitVec 64)
  | sleeping
  | undefined
deriving DecidableEq, Repr

/-- `diminuto_delay_frequency`, `Diminuto/inc/com/diag/diminuto/diminuto_delay.h:25-38`. -/
def FREQUENCY : Int := 1000000000

variable {σ : Type}

/-- The loop, `Diminuto/src/diminuto_delay.c:35-46`, and the time that is left in `result`; `remaining` is the variable of that name. -/
def loop (w : World σ) (interruptible : Bool) : Nat → (delay remaining : Timespec) → σ → Option Timespec × σ
  | 0, _, _, s => (none, s)
  | n + 1, delay, remaining, s =>
    match w.nanosleep delay s with
    | (.done, s) => (some ⟨0, 0⟩, s)
    | (.interrupted r, s) => if interruptible then (some r, s) else loop w interruptible n r r s
    | (.failed, s) => (some remaining, s)

/-- `diminuto_delay`, `Diminuto/src/diminuto_delay.c:21-52`; the argument, which is unsigned, is converted to a signed one, and the result back. -/
def delay (w : World σ) (calls : Nat) (ticks : BitVec 64) (interruptible : Bool) (s : σ) : Outcome × σ :=
  match ticks2wholeseconds ticks.toInt, ticks2fractionalseconds ticks.toInt FREQUENCY with
  | some sec, some nsec =>
    match loop w interruptible calls ⟨sec, nsec⟩ ⟨sec, nsec⟩ s with
    | (none, s) => (.sleeping, s)
    | (some r, s) =>
      match seconds2ticks r.sec r.nsec FREQUENCY with
      | some t => (.returned (BitVec.ofInt 64 t), s)
      | none => (.undefined, s)
  | _, _ => (.undefined, s)

end Diminuto.Delay
