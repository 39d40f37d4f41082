import Verif.ControllerLawLemmas

/-!
# Property C61: the control law of the Controller
-/

namespace Diminuto.Controller

/-! ## The property -/

/-- C61: in every run from the initial state without overflow, every output is that of the
control law applied to the history up to then: the output given, plus the correction, limited to the
legal range.  (The case that the sum does not fit in 16 bits is that of
`controller_saturates_counterexample`.) -/
theorem controller_law (p : Params) (hp : Proper p) (hw : 0 ≤ p.windup) (hord : Ordered p)
    (calls : List (Int × Int × Int)) (s' : State) (xs : List Int)
    (h : run p initState calls = some (s', xs)) (pre : List (Int × Int × Int)) (t i o : Int)
    (post : List (Int × Int × Int)) (hc : calls = pre ++ (t, i, o) :: post) :
    ∃ x, xs[pre.length]? = some x ∧
      (Short (o + correctionOf p ((t, i, o) :: pre.reverse)) →
        LimitedTo p (o + correctionOf p ((t, i, o) :: pre.reverse)) x) := by
  have := law_run hp hw hord calls [] initState s' xs (Or.inl ⟨rfl, rfl⟩) h pre t i o post hc
  simpa using this

/-- Three calls, with the filter: samples 0, 20, 40. -/
example : (run { sampleParams with filter := true, kd := ⟨1, 2⟩ } initState
      [(80, 0, 0), (80, 40, 10), (80, 60, 20)]).map (·.2) = some [48, 44, 48] ∧
    Proper { sampleParams with filter := true, kd := ⟨1, 2⟩ } ∧
    sampleOf { sampleParams with filter := true, kd := ⟨1, 2⟩ } [(80, 60, 20), (80, 40, 10), (80, 0, 0)]
      = 40 := by
  refine ⟨by decide +kernel, by unfold Proper; decide, by decide⟩

end Diminuto.Controller
