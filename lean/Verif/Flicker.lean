import Verif.Modulator

/-!
# Model of the score of the cycles of a modulator

Models `diminuto_modulator_flicker`, `Diminuto/src/diminuto_modulator.c:25-49`, and what `diminuto_modulator_factor`,
`Diminuto/src/diminuto_modulator.c:51-77`, returns.  The score is computed in the type `double`, which is taken to be the
binary64 of IEEE 754: the exact result of each operation is rounded to the nearest number that has a significand of 53 bits, and to
the one that is even if there are two.  No number here is negative, and all are zero or between 2^-8 and 2^15, so there is neither overflow nor underflow.
-/

namespace Diminuto.Flicker

/-- A number of the type `double` that is not negative: `m` divided by the power `k` of two. -/
structure Double where
  m : Nat
  k : Nat
  deriving DecidableEq, Repr

/-- Where the significand of the quotient begins, as at `Diminuto/src/diminuto_modulator.c:38`: the power of two by which the quotient is
multiplied in order to have 53 bits before the point. -/
def scale (n d : Nat) : Nat :=
  let k := 53 + Nat.log2 d - Nat.log2 n
  if n * 2 ^ k / d ≥ 2 ^ 53 then k - 1 else k

/-- The quotient of two integers rounded to a `double`, as at `Diminuto/src/diminuto_modulator.c:38`. -/
def round (n d : Nat) : Double :=
  if n = 0 then ⟨0, 0⟩
  else
    let k := scale n d
    let q := n * 2 ^ k / d
    let r := n * 2 ^ k % d
    if 2 * r > d ∨ (2 * r = d ∧ q % 2 = 1) then ⟨q + 1, k⟩ else ⟨q, k⟩

/-- Division by an integer, as at `Diminuto/src/diminuto_modulator.c:38` and `:43`. -/
def Double.div (x : Double) (c : Nat) : Double := round x.m (2 ^ x.k * c)

/-- Addition, `Diminuto/src/diminuto_modulator.c:42`. -/
def Double.add (x y : Double) : Double := round (x.m * 2 ^ y.k + y.m * 2 ^ x.k) (2 ^ (x.k + y.k))

/-- Multiplication by an integer, `Diminuto/src/diminuto_modulator.c:44`. -/
def Double.mul (x : Double) (c : Nat) : Double := round (x.m * c) (2 ^ x.k)

/-- Conversion to `unsigned int`, `Diminuto/src/diminuto_modulator.c:48`. -/
def Double.trunc (x : Double) : Nat := x.m / 2 ^ x.k

/-- The score from the difference and the sum, `Diminuto/src/diminuto_modulator.c:37-44`. -/
def score (difference sum : Nat) : Double :=
  (((Double.div ⟨difference, 0⟩ 255).add (Double.div ⟨sum, 0⟩ 255)).div 2).mul 100

/-- `diminuto_modulator_flicker`, `Diminuto/src/diminuto_modulator.c:25-49`.  The arguments are of a type of eight bits, so
what is given to `abs(3)` is an `int` that does not overflow. -/
def flicker (on off : BitVec 8) : Nat :=
  if off = 0 then 0
  else if on = 0 then 0
  else (score ((off.toNat : Int) - on.toNat).natAbs (off.toNat + on.toNat)).trunc

/-- The loop of `diminuto_modulator_factor`, `Diminuto/src/diminuto_modulator.c:60-74`: whether something has been changed. -/
def changedLoop : List Nat → Nat × Nat → Bool → Bool
  | [], _, rc => rc
  | p :: ps, (on, off), rc =>
    if p > on then rc
    else if p > off then rc
    else if on % p > 0 then changedLoop ps (on, off) rc
    else if off % p > 0 then changedLoop ps (on, off) rc
    else changedLoop ps (on / p, off / p) true

/-- What `diminuto_modulator_factor` returns, `Diminuto/src/diminuto_modulator.c:51-77`. -/
def changed (on off : Nat) : Bool := changedLoop Modulator.primes (on, off) false

end Diminuto.Flicker
