import Verif.Cue

/-!
# Property C19: the debouncer
-/

namespace Diminuto.Cue

/-! ## Specification

`latestRun` looks at a list of samples, newest first, for the most recent place
where three consecutive samples agree and yields their common level. -/

def latestRun : List Bool → Option Bool
  | x :: y :: z :: rest =>
    if x = y ∧ y = z then some x else latestRun (y :: z :: rest)
  | _ => none

/-- The level of a raw sample: zero is low, anything else high. -/
def level (x : Int) : Bool := decide (x ≠ 0)

/-- All samples seen, newest first; initialisation counts as three samples. -/
def history (initial : Int) (inputs : List Int) : List Bool :=
  (inputs.map level).reverse ++ [level initial, level initial, level initial]

theorem norm_level (x : Int) : norm x = level x := by
  unfold norm level
  by_cases h : x = 0 <;> simp [h]

/-- Invariant relating a state to a history. -/
def Tracks (s : State) (h : List Bool) : Prop :=
  ∃ rest, h = s.a :: s.b :: s.c :: rest ∧ latestRun h = some s.r

theorem tracks_init (i : Int) : Tracks (init i) (history i []) := by
  refine ⟨[], ?_, ?_⟩ <;> simp [init, history, norm_level, latestRun]

theorem tracks_step (s : State) (h : List Bool) (x : Int) (ht : Tracks s h) :
    Tracks (debounce s x) (level x :: h) := by
  obtain ⟨rest, rfl, hr⟩ := ht
  refine ⟨s.c :: rest, ?_, ?_⟩
  · simp [debounce, norm_level]
  · rw [latestRun, hr]
    have hr' := hr
    rw [latestRun] at hr'
    simp only [debounce, norm_level]
    cases s.a <;> cases s.b <;> cases s.c <;> cases hsr : s.r <;> cases level x <;>
      simp_all

theorem tracks_run (i : Int) (xs : List Int) : Tracks (run (init i) xs) (history i xs) := by
  suffices ∀ (s : State) (h : List Bool) (xs : List Int), Tracks s h →
      Tracks (run s xs) ((xs.map level).reverse ++ h) from this _ _ xs (tracks_init i)
  intro s h xs
  induction xs generalizing s h with
  | nil => intro ht; simpa [run] using ht
  | cons x xs ih =>
    intro ht
    have := ih _ _ (tracks_step s h x ht)
    simpa [run] using this

/-- C19: after initialisation and any sequence of samples, the debounced output is
the level of the most recent three equal consecutive samples. -/
theorem cue_output_is_latest_run (initial : Int) (inputs : List Int) :
    latestRun (history initial inputs) = some (state (run (init initial) inputs)) :=
  let ⟨_, _, h⟩ := tracks_run initial inputs
  h

/-- C19 (tracking): from any state at all, three equal samples force the output. -/
theorem cue_three_equal (s : State) (x y z : Int) (h1 : level x = level y) (h2 : level y = level z) :
    state (run s [x, y, z]) = level z := by
  simp only [run, List.foldl_cons, List.foldl_nil, state, debounce, norm_level, h1, h2]
  cases level z <;> simp

/-- C19 (glitch rejection): from any state, a sample changes the output only if it
and the two samples before it are all at the new level. -/
theorem cue_change_needs_three (s : State) (x : Int)
    (h : state (debounce s x) ≠ state s) :
    level x = state (debounce s x) ∧ s.a = state (debounce s x) ∧ s.b = state (debounce s x) := by
  simp only [state, debounce, norm_level] at *
  revert h
  cases s.a <;> cases s.b <;> cases s.r <;> cases level x <;> simp

/-- C19 (edges): the edge code classifies the previous and current outputs. -/
theorem cue_edge_codes (s : State) (x : Int) :
    let s' := debounce s x
    (edge s' = 0 ↔ state s = false ∧ state s' = false) ∧
    (edge s' = 5 ↔ state s = false ∧ state s' = true) ∧
    (edge s' = 3 ↔ state s = true ∧ state s' = true) ∧
    (edge s' = 6 ↔ state s = true ∧ state s' = false) := by
  have hp : (debounce s x).p = s.r := rfl
  simp only [state, edge, hp]
  cases s.r <;> cases (debounce s x).r <;> simp

/-- C19 (raw edges): the raw predicates compare the two newest samples. -/
theorem cue_raw_edges (s : State) (x y : Int) :
    (isRising (run s [x, y]) = true ↔ level x = false ∧ level y = true) ∧
    (isFalling (run s [x, y]) = true ↔ level x = true ∧ level y = false) := by
  simp only [run, List.foldl_cons, List.foldl_nil, isRising, isFalling, debounce, norm_level]
  cases level x <;> cases level y <;> simp

-- Non-vacuity: a two-sample glitch is ignored, three samples are not.
example : state (run (init 0) [1, 1, 0, 0, 1, 0, 1, 1]) = false ∧
    state (run (init 0) [1, 1, 0, 7, -2, 1]) = true := by decide

end Diminuto.Cue
