import Verif.Throttle

/-!
# Model of the questions that can be asked of throttles and shapers

`Diminuto/inc/com/diag/diminuto/diminuto_throttle.h:248-325` and `Diminuto/src/diminuto_shaper.c:52-186`.
-/

namespace Diminuto.Throttle

/-- `diminuto_throttle_getexpected`, `Diminuto/inc/com/diag/diminuto/diminuto_throttle.h:248-251`. -/
def getExpected (s : Throttle) : Ticks := s.expected

/-- `diminuto_throttle_isempty`, `Diminuto/inc/com/diag/diminuto/diminuto_throttle.h:258-261`. -/
def isEmpty (s : Throttle) : Bool := s.empty1

/-- `diminuto_throttle_isfull`, `Diminuto/inc/com/diag/diminuto/diminuto_throttle.h:268-271`. -/
def isFull (s : Throttle) : Bool := s.full1

/-- `diminuto_throttle_isalarmed`, `Diminuto/inc/com/diag/diminuto/diminuto_throttle.h:278-281`. -/
def isAlarmed (s : Throttle) : Bool := s.alarmed1

/-- `diminuto_throttle_alarmed`, `Diminuto/inc/com/diag/diminuto/diminuto_throttle.h:312-315`. -/
def alarmed (s : Throttle) : Bool := s.alarmed1 && !s.alarmed2

/-- `diminuto_throttle_cleared`, `Diminuto/inc/com/diag/diminuto/diminuto_throttle.h:322-325`. -/
def cleared (s : Throttle) : Bool := !s.alarmed1 && s.alarmed2

/-- `diminuto_shaper_reset`, `Diminuto/src/diminuto_shaper.c:52-65`; the throttle functions called return their non-null argument. -/
def shaperReset (s : Shaper) (now : Ticks) : Shaper := { peak := reset s.peak now, sustained := reset s.sustained now }

/-- `diminuto_shaper_getexpected`, `Diminuto/src/diminuto_shaper.c:100-109`. -/
def shaperGetExpected (s : Shaper) : Ticks := if getExpected s.peak > getExpected s.sustained then getExpected s.peak else getExpected s.sustained

/-- `diminuto_shaper_isempty`, `Diminuto/src/diminuto_shaper.c:111-120`. -/
def shaperIsEmpty (s : Shaper) : Bool := isEmpty s.peak && isEmpty s.sustained

/-- `diminuto_shaper_isfull`, `Diminuto/src/diminuto_shaper.c:122-131`. -/
def shaperIsFull (s : Shaper) : Bool := isFull s.peak || isFull s.sustained

/-- `diminuto_shaper_isalarmed`, `Diminuto/src/diminuto_shaper.c:133-142`. -/
def shaperIsAlarmed (s : Shaper) : Bool := isAlarmed s.peak || isAlarmed s.sustained

/-- `diminuto_shaper_emptied`, `Diminuto/src/diminuto_shaper.c:144-153`. -/
def shaperEmptied (s : Shaper) : Bool := emptied s.peak || emptied s.sustained

/-- `diminuto_shaper_filled`, `Diminuto/src/diminuto_shaper.c:155-164`. -/
def shaperFilled (s : Shaper) : Bool := filled s.peak || filled s.sustained

/-- `diminuto_shaper_alarmed`, `Diminuto/src/diminuto_shaper.c:166-175`. -/
def shaperAlarmed (s : Shaper) : Bool := alarmed s.peak || alarmed s.sustained

/-- `diminuto_shaper_cleared`, `Diminuto/src/diminuto_shaper.c:177-186`. -/
def shaperCleared (s : Shaper) : Bool := cleared s.peak || cleared s.sustained

/-- A call that changes a throttle: `Diminuto/src/diminuto_throttle.c:51-114`. -/
inductive Op
  | reset (now : Ticks)
  | request (now : Ticks)
  | commit (events : Ticks)
deriving DecidableEq

/-- A throttle after calls, and after every commit since the last reset what it said about being empty and being full: `Diminuto/src/diminuto_throttle.c:51-114`, `Diminuto/inc/com/diag/diminuto/diminuto_throttle.h:258-271`. -/
def watch (s : Throttle) (seen : List (Bool × Bool)) : List Op → Throttle × List (Bool × Bool)
  | [] => (s, seen)
  | .reset now :: os => watch (reset s now) [] os
  | .request now :: os => watch (request s now).2 seen os
  | .commit events :: os => watch (commitn s events).2 (seen ++ [(isEmpty (commitn s events).2, isFull (commitn s events).2)]) os

end Diminuto.Throttle
