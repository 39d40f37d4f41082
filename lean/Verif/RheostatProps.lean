import Verif.RheostatLemmas

/-! # Properties of the tool that measures the voltage for every duty cycle -/

namespace Diminuto.Rheostat

/-- However often the modulator is behind, the lines are five for each duty cycle, from 255 down to 0, one for every fourth conversion that is not skipped; the duty cycles passed to the modulator are these in the
same order, without the first; and the loop ends with the last of the 1280 lines, and not before. -/
theorem rheostat_sweep (events : List Bool) :
    (run init events).1 = decide (5120 ≤ counted events) ∧
    (run init events).2.1 = (List.range (min (counted events) 5120 / 4)).map (fun m => down (m / 5)) ∧
    (run init events).2.2 = (List.range (min (counted events / 20) 255)).map (fun j => down (j + 1)) := by
  have e : init = after 0 := by decide
  have h := run_after events 0 (by decide)
  rw [← e] at h
  simpa [List.range_eq_range'] using h

example : (run init (List.replicate 24 false)).2 = ([255, 255, 255, 255, 255, 254], [254]) := by decide

/-- Every duty cycle that is passed to the modulator, and that of every line, is one: from 0 to 255. -/
theorem rheostat_legal (events : List Bool) : (∀ d ∈ (run init events).2.1, 0 ≤ d ∧ d ≤ 255) ∧ ∀ d ∈ (run init events).2.2, 0 ≤ d ∧ d ≤ 255 := by
  obtain ⟨_, h1, h2⟩ := rheostat_sweep events
  have t : ∀ j, j ≤ 255 → 0 ≤ down j ∧ down j ≤ 255 := by
    intro j hj
    unfold down
    omega
  rw [h1, h2]
  constructor
  · intro d hd
    obtain ⟨m, hm, rfl⟩ := List.mem_map.1 hd
    rw [List.mem_range] at hm
    exact t _ (by omega)
  · intro d hd
    obtain ⟨m, hm, rfl⟩ := List.mem_map.1 hd
    rw [List.mem_range] at hm
    exact t _ (by omega)

/-- When the loop has ended every duty cycle has been measured, five times. -/
theorem rheostat_complete (events : List Bool) (h : (run init events).1 = true) : (run init events).2.1.length = 1280 ∧ ∀ d : Nat, d ≤ 255 → ∀ i < 5, (run init events).2.1[5 * (255 - d) + i]? = some (d : Int) := by
  obtain ⟨h0, h1, _⟩ := rheostat_sweep events
  rw [h0, decide_eq_true_eq] at h
  have e : min (counted events) 5120 / 4 = 1280 := by omega
  rw [h1, e]
  refine ⟨by simp, fun d d1 i hi => ?_⟩
  rw [List.getElem?_map, List.getElem?_range (by omega)]
  have q : (5 * (255 - d) + i) / 5 = 255 - d := by omega
  simp only [Option.map_some, q, down]
  congr 1
  omega

/-- The loop ends after enough conversions. -/
example : (run init (List.replicate 5120 false)).1 = true := by
  have h : counted (List.replicate 5120 false) = 5120 := List.count_replicate_self
  rw [(rheostat_sweep _).1, h]
  rfl

end Diminuto.Rheostat
