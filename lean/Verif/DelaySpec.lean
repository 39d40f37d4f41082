import Verif.Delay

/-!
# Specification: delays

A clock that counts nanoseconds, which are ticks.
-/

namespace Diminuto.Delay

/-- The number of nanoseconds of a time. -/
def Timespec.ns (t : Timespec) : Int := t.sec * 1000000000 + t.nsec

/-- The time is one that `nanosleep(2)` accepts. -/
def Timespec.Valid (t : Timespec) : Prop := 0 ≤ t.sec ∧ 0 ≤ t.nsec ∧ t.nsec < 1000000000

/-- `nanosleep(2)` does what its manual says: it fails for another reason than a signal exactly if it is given an invalid time, and then it does not sleep; otherwise it sleeps at least
as long as asked, or a signal ends it earlier and it says how much is left at least. -/
structure Honest {σ : Type} (w : World σ) (clock : σ → Int) : Prop where
  done : ∀ t s s', w.nanosleep t s = (.done, s') → t.Valid ∧ clock s + t.ns ≤ clock s'
  interrupted : ∀ t r s s', w.nanosleep t s = (.interrupted r, s') → t.Valid ∧ r.Valid ∧ r.ns ≤ t.ns ∧ clock s ≤ clock s' ∧ clock s + t.ns ≤ clock s' + r.ns
  failed : ∀ t s s', w.nanosleep t s = (.failed, s') → ¬ t.Valid ∧ clock s' = clock s

/-- There are only so many signals: every time `nanosleep(2)` is interrupted there are fewer of them left. -/
def Signals {σ : Type} (w : World σ) (pending : σ → Nat) : Prop :=
  ∀ t r s s', w.nanosleep t s = (.interrupted r, s') → pending s' < pending s

/-- The system call, with a note of the times it was given. -/
def noting {σ : Type} (w : World σ) : World (σ × List Timespec) where
  nanosleep := fun t s => ((w.nanosleep t s.1).1, (w.nanosleep t s.1).2, t :: s.2)

/-- A machine with a clock and signals to come, at times of the clock: the earliest first. -/
def machine : World (Int × List Int) where
  nanosleep := fun t s =>
    if 0 ≤ t.sec ∧ 0 ≤ t.nsec ∧ t.nsec < 1000000000 then
      match s.2 with
      | [] => (.done, s.1 + t.ns, [])
      | a :: l =>
        let at_ := max a s.1
        if s.1 + t.ns ≤ at_ then (.done, s.1 + t.ns, a :: l)
        else (.interrupted ⟨(s.1 + t.ns - at_) / 1000000000, (s.1 + t.ns - at_) % 1000000000⟩, at_, l)
    else (.failed, s)

end Diminuto.Delay
