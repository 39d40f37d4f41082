/-!
# Model of the Throttle and Shaper features

Models `Diminuto/src/diminuto_throttle.c` and `Diminuto/src/diminuto_shaper.c`
except for logging.  Ticks are `uint64_t` and wrap, so they are `BitVec 64`; so
is the `size_t` number of events.  Single-bit fields are `Bool`.
-/

namespace Diminuto.Throttle

/-- `diminuto_ticks_t`, `Diminuto/inc/com/diag/diminuto/diminuto_types.h:43`. -/
abbrev Ticks := BitVec 64

/-- `diminuto_throttle_t`, `Diminuto/inc/com/diag/diminuto/diminuto_throttle.h:58-73`. -/
structure Throttle where
  now : Ticks
  then_ : Ticks
  increment : Ticks
  limit : Ticks
  expected : Ticks
  actual : Ticks
  full0 : Bool
  full1 : Bool
  full2 : Bool
  empty0 : Bool
  empty1 : Bool
  empty2 : Bool
  alarmed1 : Bool
  alarmed2 : Bool
  deriving DecidableEq, Repr

/-- `diminuto_throttle_interarrivaltime`, `Diminuto/src/diminuto_throttle.c:17-37`. -/
def interarrivalTime (numerator denominator frequency : Ticks) : Ticks :=
  let increment := if denominator > 1 then frequency * denominator else frequency
  if numerator ≤ 1 then increment
  else if increment % numerator > 0 then increment / numerator + 1
  else increment / numerator

/-- `diminuto_throttle_jittertolerance`, `Diminuto/src/diminuto_throttle.c:39-49`. -/
def jitterTolerance (increment maximumBurstSize : Ticks) : Ticks :=
  if maximumBurstSize > 1 then (maximumBurstSize - 1) * increment else 0

/-- `diminuto_throttle_reset`, `Diminuto/src/diminuto_throttle.c:51-62`. -/
def reset (s : Throttle) (now : Ticks) : Throttle :=
  { s with now := now, then_ := now - s.increment, expected := 0, actual := 0,
           full0 := false, full1 := false, full2 := false,
           empty0 := true, empty1 := true, empty2 := true,
           alarmed1 := false, alarmed2 := false }

/-- `diminuto_throttle_init`, `Diminuto/src/diminuto_throttle.c:64-70`, applied to an
object with any contents. -/
def init (s : Throttle) (increment limit now : Ticks) : Throttle :=
  reset { s with increment := increment, limit := limit } now

/-- `diminuto_throttle_request`, `Diminuto/src/diminuto_throttle.c:72-94`: the delay
and the new state. -/
def request (s : Throttle) (now : Ticks) : Ticks × Throttle :=
  let s := { s with now := now }
  let elapsed := s.now - s.then_
  if s.expected ≤ elapsed then
    (0, { s with actual := 0, full0 := false, empty0 := true })
  else
    let s := { s with actual := s.expected - elapsed }
    if s.actual ≤ s.limit then (0, { s with full0 := false, empty0 := false })
    else (s.actual - s.limit, { s with full0 := true, empty0 := false })

/-- `diminuto_throttle_emptied`,
`Diminuto/inc/com/diag/diminuto/diminuto_throttle.h:292-295`. -/
def emptied (s : Throttle) : Bool := s.empty1 && !s.empty2

/-- `diminuto_throttle_filled`,
`Diminuto/inc/com/diag/diminuto/diminuto_throttle.h:302-305`. -/
def filled (s : Throttle) : Bool := s.full1 && !s.full2

/-- `diminuto_throttle_commitn`, `Diminuto/src/diminuto_throttle.c:96-114`: the alarm
flag and the new state. -/
def commitn (s : Throttle) (events : Ticks) : Bool × Throttle :=
  let s := { s with
    then_ := s.now
    expected := s.actual + events * s.increment
    full2 := s.full1
    full1 := s.full0
    empty2 := s.empty1
    empty1 := s.empty0
    alarmed2 := s.alarmed1 }
  let s :=
    if emptied s then { s with alarmed1 := false }
    else if filled s then { s with alarmed1 := true }
    else s
  (s.alarmed1, s)

/-- `diminuto_throttle_admitn`,
`Diminuto/inc/com/diag/diminuto/diminuto_throttle.h:204-209`. -/
def admitn (s : Throttle) (now events : Ticks) : Bool × Throttle :=
  commitn (request s now).2 events

/-- `diminuto_shaper_t`, `Diminuto/inc/com/diag/diminuto/diminuto_shaper.h:41-44`. -/
structure Shaper where
  peak : Throttle
  sustained : Throttle
  deriving DecidableEq, Repr

/-- `diminuto_shaper_bursttolerance`, `Diminuto/src/diminuto_shaper.c:17-35`. -/
def burstTolerance (peakIncrement jitterTolerance sustainedIncrement maximumBurstSize : Ticks) :
    Ticks :=
  (if maximumBurstSize ≤ 1 then 0
   else if sustainedIncrement ≤ peakIncrement then 0
   else (maximumBurstSize - 1) * (sustainedIncrement - peakIncrement)) + jitterTolerance

/-- `diminuto_shaper_init`, `Diminuto/src/diminuto_shaper.c:37-50`; the throttle
functions called return their non-null argument. -/
def shaperInit (s : Shaper) (peakIncrement jitterTolerance sustainedIncrement burstTolerance now : Ticks) :
    Shaper :=
  { peak := init s.peak peakIncrement jitterTolerance now,
    sustained := init s.sustained sustainedIncrement burstTolerance now }

/-- `diminuto_shaper_request`, `Diminuto/src/diminuto_shaper.c:67-76`. -/
def shaperRequest (s : Shaper) (now : Ticks) : Ticks × Shaper :=
  let (peak, p) := request s.peak now
  let (sustained, q) := request s.sustained now
  (if peak > sustained then peak else sustained, { peak := p, sustained := q })

/-- `diminuto_shaper_commitn`, `Diminuto/src/diminuto_shaper.c:78-87`. -/
def shaperCommitn (s : Shaper) (events : Ticks) : Bool × Shaper :=
  let (peak, p) := commitn s.peak events
  let (sustained, q) := commitn s.sustained events
  (peak || sustained, { peak := p, sustained := q })

/-- `diminuto_shaper_admitn`, `Diminuto/src/diminuto_shaper.c:89-98`. -/
def shaperAdmitn (s : Shaper) (now events : Ticks) : Bool × Shaper :=
  let (peak, p) := admitn s.peak now events
  let (sustained, q) := admitn s.sustained now events
  (peak || sustained, { peak := p, sustained := q })

end Diminuto.Throttle
