/-!
# Model of the signals of a multiplexer

`Diminuto/src/diminuto_mux.c:193-229`.  A set of signals is a function from numbers of signals.  The functions for sets are those of the library of the system: numbers less than one or greater than 64 are refused by all three, and `sigaddset(3)` and `sigdelset(3)` refuse besides the two signals that the library keeps for itself, 32 and 33.
-/

namespace Diminuto.Muxsignal

/-- The member `mask` of `Diminuto/inc/com/diag/diminuto/diminuto_mux.h:88`, of type `sigset_t`. -/
abbrev Mask := Int → Bool

/-- `sigismember(3)`, called in `Diminuto/src/diminuto_mux.c:197` and `:216`. -/
def sigismember (m : Mask) (signum : Int) : Int :=
  if signum ≤ 0 ∨ 64 < signum then -1 else if m signum then 1 else 0

/-- `sigaddset(3)`, called in `Diminuto/src/diminuto_mux.c:203`: the new set, or an error. -/
def sigaddset (m : Mask) (signum : Int) : Option Mask :=
  if signum ≤ 0 ∨ 64 < signum ∨ signum = 32 ∨ signum = 33 then none else some (fun n => if n = signum then true else m n)

/-- `sigdelset(3)`, called in `Diminuto/src/diminuto_mux.c:222`: the new set, or an error. -/
def sigdelset (m : Mask) (signum : Int) : Option Mask :=
  if signum ≤ 0 ∨ 64 < signum ∨ signum = 32 ∨ signum = 33 then none else some (fun n => if n = signum then false else m n)

/-- `diminuto_mux_register_signal`, `Diminuto/src/diminuto_mux.c:193-210`: the result and the mask.  If `sigaddset(3)` fails the result is that of `sigismember(3)`. -/
def register (m : Mask) (signum : Int) : Int × Mask :=
  if sigismember m signum < 0 then (sigismember m signum, m)
  else if sigismember m signum > 0 then (-1, m)
  else
    match sigaddset m signum with
    | none => (sigismember m signum, m)
    | some m' => (signum, m')

/-- `diminuto_mux_unregister_signal`, `Diminuto/src/diminuto_mux.c:212-229`; as before. -/
def unregister (m : Mask) (signum : Int) : Int × Mask :=
  if sigismember m signum < 0 then (sigismember m signum, m)
  else if sigismember m signum = 0 then (-1, m)
  else
    match sigdelset m signum with
    | none => (sigismember m signum, m)
    | some m' => (0, m')

/-- A call of one of the two functions. -/
structure Call where
  registers : Bool
  signum : Int
deriving DecidableEq

/-- What a call does, `Diminuto/src/diminuto_mux.c:193-229`. -/
def call (m : Mask) (c : Call) : Int × Mask := if c.registers then register m c.signum else unregister m c.signum

/-- The results of calls, and the mask after them, which is that with which `diminuto_mux_wait` waits, `Diminuto/inc/com/diag/diminuto/diminuto_mux.h:244-247`. -/
def calls (m : Mask) : List Call → List Int × Mask
  | [] => ([], m)
  | c :: cs => ((call m c).1 :: (calls (call m c).2 cs).1, (calls (call m c).2 cs).2)

end Diminuto.Muxsignal
