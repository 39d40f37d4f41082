/-!
# Model of the Fibonacci feature

Models `Diminuto/inc/com/diag/diminuto/diminuto_fibonacci.h:47-153`.  Values are
`uint32_t`, modelled by `BitVec 32` because the comparison on line 150 relies on
unsigned subtraction.
-/

namespace Diminuto.Fibonacci

/-- `diminuto_fibonacci_state_t`,
`Diminuto/inc/com/diag/diminuto/diminuto_fibonacci.h:54-58`. -/
structure State where
  x1 : BitVec 32
  x0 : BitVec 32
  xm : BitVec 32
  deriving DecidableEq, Repr

/-- `diminuto_fibonacci_init`,
`Diminuto/inc/com/diag/diminuto/diminuto_fibonacci.h:68-74`. -/
def init (x0 x1 xm : BitVec 32) : State := { x0 := x0, x1 := x1, xm := xm }

/-- `diminuto_maximumof(uint32_t)` as used on lines 94, 105 and 116 of
`Diminuto/inc/com/diag/diminuto/diminuto_fibonacci.h`. -/
def maximum : BitVec 32 := 0xffffffff

/-- `diminuto_fibonacci_init_classic`,
`Diminuto/inc/com/diag/diminuto/diminuto_fibonacci.h:92-95`. -/
def initClassic : State := init 1 1 maximum

/-- `diminuto_fibonacci_init_modern`,
`Diminuto/inc/com/diag/diminuto/diminuto_fibonacci.h:103-106`. -/
def initModern : State := init 0 1 maximum

/-- `diminuto_fibonacci_init_advanced`,
`Diminuto/inc/com/diag/diminuto/diminuto_fibonacci.h:114-117`. -/
def initAdvanced : State := init 1 2 maximum

/-- `diminuto_fibonacci_set_limit`,
`Diminuto/inc/com/diag/diminuto/diminuto_fibonacci.h:127-131`: the new state and
the prior limit. -/
def setLimit (s : State) (xm : BitVec 32) : State × BitVec 32 := ({ s with xm := xm }, s.xm)

/-- `diminuto_fibonacci_next`,
`Diminuto/inc/com/diag/diminuto/diminuto_fibonacci.h:144-153`: the new state and
the returned value. -/
def next (s : State) : State × BitVec 32 :=
  let xn := s.x0
  let x0 := s.x1
  let x1 := if s.xm - s.x1 > xn then s.x1 + xn else s.x1
  ({ s with x0 := x0, x1 := x1 }, xn)

/-- The state after `n` calls of `diminuto_fibonacci_next`,
`Diminuto/inc/com/diag/diminuto/diminuto_fibonacci.h:144-153`. -/
def after (s : State) : Nat → State
  | 0 => s
  | n + 1 => (next (after s n)).1

/-- The value returned by call number `n` (counting from zero) of
`diminuto_fibonacci_next`,
`Diminuto/inc/com/diag/diminuto/diminuto_fibonacci.h:144-153`. -/
def output (s : State) (n : Nat) : BitVec 32 := (next (after s n)).2

end Diminuto.Fibonacci
