import Verif.Number
import Verif.Delay

/-!
# Model of the tool that sleeps

`Diminuto/bin/elapsedsleep.c:36-82`.  The arguments are those after the name of the program.  Messages are left out.
-/

namespace Diminuto.Elapsedsleep

/-- What the program does: it exits with one, it calls `sched_yield(2)` and exits with zero, it sleeps and exits with zero, or its behaviour is undefined because a computation overflows. -/
inductive Outcome where
  | refused
  | yielded
  | slept
  | undefined
deriving DecidableEq

/-- The delay, `Diminuto/bin/elapsedsleep.c:43-56`; nothing if it is refused. -/
def delayOf : Option (List Byte) → Option Int
  | none => some 0
  | some t =>
    if (Number.strtoll t).1 < 0 then none
    else if (Number.strtoll t).2.1 ≠ [] then none
    else some (Number.strtoll t).1

/-- The units, `Diminuto/bin/elapsedsleep.c:58-71`; nothing if they are refused. -/
def unitsOf : Option (List Byte) → Option Int
  | none => some 1
  | some t =>
    if (Number.strtoll t).1 ≤ 0 then none
    else if (Number.strtoll t).2.1 ≠ [] then none
    else some (Number.strtoll t).1

/-- `main`, `Diminuto/bin/elapsedsleep.c:36-82`.  The ticks, which are greater than zero, are converted to an unsigned type for the delay, `:78`, which is interrupted by the first signal. -/
def main {σ : Type} (w : Delay.World σ) (args : List (List Byte)) (s : σ) : Outcome × σ :=
  match delayOf args[0]? with
  | none => (.refused, s)
  | some delay =>
    match unitsOf args[1]? with
    | none => (.refused, s)
    | some units =>
      match if delay = 0 then some 0 else Time.units2ticks delay units with
      | none => (.undefined, s)
      | some ticks =>
        if ticks ≤ 0 then (.yielded, s)
        else
          match Delay.delay w 1 (BitVec.ofInt 64 ticks) true s with
          | (.undefined, s) => (.undefined, s)
          | (_, s) => (.slept, s)

end Diminuto.Elapsedsleep
