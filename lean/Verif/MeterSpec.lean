import Verif.Meter

/-!
# Specification: the meter
-/

namespace Diminuto.Meter

/-- A history of calls: the time and the number of events of each. -/
abbrev History := List (BitVec 64 × BitVec 64)

/-- The number of all events. -/
def total (h : History) : Nat := (h.map (·.2.toNat)).sum

/-- The largest number of events of a call. -/
def largest (h : History) : Nat := (h.map (·.2.toNat)).foldl max 0

/-- The number of calls with events. -/
def calls (h : History) : Nat := (h.filter (fun x => x.2 ≠ 0#64)).length

/-- The time of the last call. -/
def latest (start : BitVec 64) : History → BitVec 64
  | [] => start
  | x :: h => latest x.1 h

/-- Time does not go back. -/
def Sorted (start : BitVec 64) : History → Prop
  | [] => True
  | x :: h => start ≤ x.1 ∧ Sorted x.1 h

/-- The rate of events in an interval; infinite if the interval is empty. -/
def rateOf (rate : Rating) (before : BitVec 64) (x : BitVec 64 × BitVec 64) : Double :=
  if x.1 = before then .infinite else .finite (rate x.2 (x.1 - before))

/-- The rate between each call with events and the call before, after the first call with events. -/
def rates (rate : Rating) : Bool → BitVec 64 → History → List Double
  | _, _, [] => []
  | seen, before, x :: h =>
    if x.2 = 0#64 then rates rate seen x.1 h
    else (if seen then [rateOf rate before x] else []) ++ rates rate true x.1 h

/-- The rate between each call with events and the call with events before it. -/
def eventRates (rate : Rating) (h : History) : List Double :=
  let es := h.filter (fun x => x.2 ≠ 0#64)
  (es.zip es.tail).map fun p => rateOf rate p.1.1 p.2

/-- The greatest of some rates (zero if there are none). -/
def IsPeak (l : List Double) (p : Double) : Prop := p ∈ .finite 0 :: l ∧ ∀ r ∈ .finite 0 :: l, r.gt p = false

/-- The rate in events per second. -/
def exactRate : Rating := fun e t => (e.toNat : Rat) * 1000000000 / (t.toNat : Rat)

end Diminuto.Meter
