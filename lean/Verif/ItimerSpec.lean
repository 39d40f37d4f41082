import Verif.Itimer

/-!
# Specification: the singleton timer

What the documentation, `Diminuto/inc/com/diag/diminuto/diminuto_timer.h:216-271`, says about `diminuto_timer_setitimer` in terms of the calls that were made and of when they were made.  A
history is a list of what happened with the latest first.
-/

namespace Diminuto.Itimer

/-- What is asked for by a call that takes effect. -/
structure Request where
  ticks : Nat
  periodic : Bool
  /-- How long ago. -/
  age : Nat
deriving DecidableEq

/-- A call has been made for which the timer could be made. -/
def Made (h : List Event) : Prop := ∃ t p, Event.call t p true ∈ h

/-- The latest call that takes effect, which a call does if the timer is there or can be made. -/
inductive Latest : List Event → Request → Prop where
  | now (t : BitVec 64) (p r : Bool) (h : List Event) (hr : r = true ∨ Made h) : Latest (.call t p r :: h) ⟨t.toNat, p, 0⟩
  | later (h : List Event) (q : Request) (hq : Latest h q) : Latest (.pass :: h) { q with age := q.age + 1 }

/-- The signal is sent now according to a request: after as many ticks as asked for, and if periodic after every multiple of them; a request for none cancels. -/
def Request.Sounds (q : Request) : Prop := 0 < q.ticks ∧ 0 < q.age ∧ (q.age = q.ticks ∨ (q.periodic = true ∧ q.ticks ∣ q.age))

/-- The ticks that are left until the signal is sent next; none if it is not. -/
def Request.left (q : Request) : Nat := if q.periodic then q.ticks - q.age % q.ticks else q.ticks - q.age

/-- What is seen of the latest event is as documented. -/
inductive Documented : List Event → Output → Prop where
  /-- Time passes, and the latest request says whether the signal is sent. -/
  | sounds (h : List Event) (q : Request) (a : Bool) (hq : Latest (.pass :: h) q) (ha : a = true ↔ q.Sounds) : Documented (.pass :: h) (.passed a)
  /-- Time passes before there is any request. -/
  | silence (h : List Event) (hn : ∀ q, ¬ Latest h q) : Documented (.pass :: h) (.passed false)
  /-- The call returns what is left of the timer before it. -/
  | left (t : BitVec 64) (p r : Bool) (h : List Event) (q : Request) (hq : Latest h q) : Documented (.call t p r :: h) (.returned q.left)
  /-- There was no timer before it. -/
  | first (t : BitVec 64) (p : Bool) (h : List Event) (hn : ¬ Made h) : Documented (.call t p true :: h) (.returned 0)
  /-- The timer could not be made. -/
  | error (t : BitVec 64) (p : Bool) (h : List Event) (hn : ¬ Made h) : Documented (.call t p false :: h) (.returned (-1))

/-- All that is seen is. -/
inductive AllDocumented : List Event → List Output → Prop where
  | nil : AllDocumented [] []
  | cons (e : Event) (h : List Event) (o : Output) (os : List Output) (ho : Documented (e :: h) o) (hs : AllDocumented h os) : AllDocumented (e :: h) (o :: os)

/-- The calls are for less than 2^63 ticks. -/
def Short (h : List Event) : Prop := ∀ t p r, Event.call t p r ∈ h → t.toNat < 2 ^ 63

/-- The calls all ask for a periodic timer, or none does. -/
def Alike (p : Bool) (h : List Event) : Prop := ∀ t q r, Event.call t q r ∈ h → q = p

/-- The history as it would be had every call asked for the periodicity that the given one, the one which made the timer, asked for. -/
def asIf (p : Bool) : List Event → List Event
  | [] => []
  | .pass :: h => .pass :: asIf p h
  | .call t _ r :: h => .call t p r :: asIf p h

/-- The timer was made by a call that asked for this periodicity. -/
inductive MadeWith (p : Bool) : List Event → Prop where
  | now (t : BitVec 64) (h : List Event) (hn : ¬ Made h) : MadeWith p (.call t p true :: h)
  | later (e : Event) (h : List Event) (hm : MadeWith p h) : MadeWith p (e :: h)

end Diminuto.Itimer
