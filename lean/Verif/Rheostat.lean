import Verif.Fletcher

/-!
# Model of the tool that measures the voltage for every duty cycle

The work loop of `Diminuto/fun/adcrheostat.c:55-292`, as a function of whether, after each conversion, a duty cycle that was passed to the modulator is still to be taken over by it.  The files, the signals and the voltage, which is
printed as it was sensed, are left out.
-/

namespace Diminuto.Rheostat

/-- The variables, `Diminuto/fun/adcrheostat.c:64-80`. -/
structure State where
  sustain : Int
  measure : Int
  duty : Int
  increment : Int
deriving DecidableEq

/-- As the loop begins, with the constants of `Diminuto/fun/adcrheostat.c:52-54`. -/
def init : State := ⟨4, 5, 255, 1⟩

/-- What is done for one conversion: the state, or none if the loop ends; the duty cycle for which a line is printed, if one is; and the duty cycle that is passed to the modulator, if one is. -/
abbrev Step := Option State × Option Int × Option Int

/-- `Diminuto/fun/adcrheostat.c:198-237`; `set` is the field of the modulator. -/
def step (set : Bool) (s : State) : Step :=
  if set then (some s, none, none)
  else if s.sustain > 1 then (some { s with sustain := s.sustain - 1 }, none, none)
  else if s.measure > 1 then (some { s with sustain := 4, measure := s.measure - 1 }, some s.duty, none)
  else if s.duty + s.increment > 255 then (some ⟨4, 5, 254, -1⟩, some s.duty, some 254)
  else if s.duty + s.increment < 0 then (none, some s.duty, none)
  else (some ⟨4, 5, s.duty + s.increment, s.increment⟩, some s.duty, some (s.duty + s.increment))

/-- The loop, `Diminuto/fun/adcrheostat.c:158-245`: whether it has ended, the duty cycles of the lines, and those passed to the modulator. -/
def run (s : State) : List Bool → Bool × List Int × List Int
  | [] => (false, [], [])
  | set :: more =>
    match step set s with
    | (none, line, duty) => (true, line.toList, duty.toList)
    | (some s, line, duty) => ((run s more).1, line.toList ++ (run s more).2.1, duty.toList ++ (run s more).2.2)

end Diminuto.Rheostat
