/-!
# Model of the Cue (debouncer) feature

Models `Diminuto/src/diminuto_cue.c:15-54` and
`Diminuto/inc/com/diag/diminuto/diminuto_cue.h:52-152`.  The state fields are
one-bit bit-fields, modelled as `Bool`; the `int` input is normalised by `!!`.
-/

namespace Diminuto.Cue

/-- `diminuto_cue_state_t`, `Diminuto/inc/com/diag/diminuto/diminuto_cue.h:52-58`. -/
structure State where
  a : Bool
  b : Bool
  c : Bool
  r : Bool
  p : Bool
  deriving DecidableEq, Repr

/-- `!!input`, `Diminuto/src/diminuto_cue.c:17` and `:30`. -/
def norm (input : Int) : Bool := input != 0

/-- `diminuto_cue_init`, `Diminuto/src/diminuto_cue.c:15-24`. -/
def init (initial : Int) : State :=
  let i := norm initial
  ⟨i, i, i, i, i⟩

/-- `diminuto_cue_debounce`, `Diminuto/src/diminuto_cue.c:26-33`; the returned
value is the new `r`. -/
def debounce (s : State) (input : Int) : State :=
  let c := s.b
  let b := s.a
  let a := norm input
  let p := s.r
  { a := a, b := b, c := c, p := p, r := (p && (a || b || c)) || (a && b && c) }

/-- `diminuto_cue_state`, `Diminuto/inc/com/diag/diminuto/diminuto_cue.h:95-97`. -/
def state (s : State) : Bool := s.r

/-- `diminuto_cue_edge`, `Diminuto/src/diminuto_cue.c:35-54` with the enumeration
values of `Diminuto/inc/com/diag/diminuto/diminuto_cue.h:118-123`. -/
def edge (s : State) : Nat :=
  if !s.p then (if !s.r then 0 else 5) else (if !s.r then 6 else 3)

/-- `diminuto_cue_isrising`, `Diminuto/inc/com/diag/diminuto/diminuto_cue.h:138-141`. -/
def isRising (s : State) : Bool := s.a && !s.b

/-- `diminuto_cue_isfalling`, `Diminuto/inc/com/diag/diminuto/diminuto_cue.h:149-152`. -/
def isFalling (s : State) : Bool := !s.a && s.b

/-- Feeding successive samples to `diminuto_cue_debounce`,
`Diminuto/src/diminuto_cue.c:26-33`. -/
def run (s : State) (inputs : List Int) : State := inputs.foldl debounce s

end Diminuto.Cue
