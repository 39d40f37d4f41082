import Verif.ObservationLemmas

/-!
# Property C42: the Observation
-/

namespace Diminuto.Observation

/-- C42: at every instant of every execution, a reader that opens the path finds all that was written to the observation that was committed
last, or if there is none, what there was before. -/
theorem observation_atomic (length : Nat) (old : Option (List Byte)) (es : List Event) (s : State)
    (h : run length (start old) es = some s) : contents s = expected old s := (run_inv h).spec

/-- C42: a reader that has opened the path keeps seeing the same bytes, whatever happens afterwards. -/
theorem observation_reader_stable (length : Nat) (old : Option (List Byte)) (es : List Event) (s : State)
    (h : run length (start old) es = some s) (i : Nat) (hf : s.dir .final = some i) (es' : List Event) (s' : State)
    (h' : run length s es' = some s') : s'.data i = s.data i := by
  have hi := run_inv h
  have hs : Sealed i s := ⟨hi.low _ _ hf, fun o t p hp => hi.final t i (hi.opened o t i p hp).1 hf⟩
  clear hi hf h
  induction es' generalizing s with
  | nil =>
    simp only [run, Option.some.injEq] at h'
    rw [h']
  | cons e es' ih =>
    simp only [run, Option.bind_eq_some_iff] at h'
    obtain ⟨s1, h1, h2⟩ := h'
    obtain ⟨h3, h4⟩ := step_sealed hs e h1
    rw [ih s1 h2 h3, h4]

/-- C42: only a rename changes what a reader finds; in particular discarding, failing and crashing do not. -/
theorem observation_others_keep (length : Nat) (old : Option (List Byte)) (es : List Event) (s : State)
    (h : run length (start old) es = some s) (e : Event) (he : ∀ o, e ≠ .rename o) (s' : State) (hs : step length s e = some s') :
    contents s' = contents s ∧ s'.commits = s.commits := by
  have h1 := run_inv' es (inv_start old) (fun _ _ => rfl) h
  have h2 := (step_inv h1.1 h1.2 e hs).spec
  have hc : s'.commits = s.commits := by
    cases e <;> simp only [step] at hs
    case rename o => exact absurd rfl (he o)
    case crash o =>
      simp only [Option.some.injEq] at hs
      rw [← hs]
    case commit o =>
      split at hs
      · split at hs <;> simp only [Option.some.injEq] at hs <;> rw [← hs]
      · simp at hs
    case checkpoint o c =>
      split at hs
      · split at hs <;> simp only [Option.some.injEq, reduceCtorEq] at hs
        rw [← hs]
      · simp at hs
    all_goals
      split at hs <;> simp only [Option.some.injEq, reduceCtorEq] at hs
      rw [← hs]
      try rfl
  refine ⟨?_, hc⟩
  rw [h2, h1.1.spec]
  simp only [expected, hc]
  cases hcm : s.commits with
  | nil => rfl
  | cons o l =>
    simp only [Option.some.injEq]
    have hsl := h1.1.sealed o (by rw [hcm]; simp)
    cases e <;> simp only [step] at hs
    case rename o => exact absurd rfl (he o)
    case crash o =>
      simp only [Option.some.injEq] at hs
      rw [← hs]
    case commit o =>
      split at hs
      · split at hs <;> simp only [Option.some.injEq] at hs <;> rw [← hs]
      · simp at hs
    case checkpoint o c =>
      split at hs
      · split at hs <;> simp only [Option.some.injEq, reduceCtorEq] at hs
        rw [← hs]
      · simp at hs
    case write q bs =>
      split at hs <;> simp only [Option.some.injEq, reduceCtorEq] at hs
      rename_i hp
      rw [← hs]
      simp only []
      rw [upd_ne]
      rintro rfl
      rw [hp] at hsl
      simp at hsl
    all_goals
      split at hs <;> simp only [Option.some.injEq, reduceCtorEq] at hs
      rw [← hs]
      try rfl

/-- C42: a temporary file belongs to an observation that is open or being committed or discarded, that crashed, or on which
a function has failed; no two observations have the same. -/
theorem observation_temporaries (length : Nat) (old : Option (List Byte)) (es : List Event) (s : State)
    (h : run length (start old) es = some s) (t : Nat) (ht : s.dir (.temp t) ≠ none) :
    ∃ o, (s.pc o).name = some t ∧ ∀ q, (s.pc q).name = some t → q = o := by
  obtain ⟨o, ho⟩ := (run_inv h).owner t ht
  exact ⟨o, ho, fun q hq => (run_inv h).apart q o t hq ho⟩

/-- C42: a checkpoint has the beginning of what was written to an observation. -/
theorem observation_checkpoint_prefix (length : Nat) (old : Option (List Byte)) (es : List Event) (s : State)
    (h : run length (start old) es = some s) (c i : Nat) (hc : s.dir (.check c) = some i) :
    ∃ o, s.data i <+: s.written o := by
  obtain ⟨o, h1, -⟩ := (run_inv h).check c i hc
  exact ⟨o, h1⟩

/-- C42: the path that commit computes is the one given to create, for paths of two or more characters that create accepts. -/
theorem observation_path (path random : List Byte) (hr : random.length = 6) (h2 : 2 ≤ path.length)
    (hc : creatable path.length = true) : target (temporary path random) = some path := by
  simp only [creatable, PATH, SUFFIX] at hc
  replace hc := of_decide_eq_true hc
  unfold target
  have hl : (temporary path random).length = path.length + 7 := by
    simp only [temporary, List.length_append, List.length_cons, hr]
  rw [if_pos (by rw [hl]; simp only [SUFFIX, PATH]; omega), hl]
  congr 1
  rw [show path.length + 7 + 1 - SUFFIX = path.length by simp only [SUFFIX]; omega]
  simp [temporary]

/-- A path of one character is accepted by create, but never committed. -/
theorem observation_path_counterexample (c : Byte) (random : List Byte) (hr : random.length = 6) :
    creatable [c].length = true ∧ target (temporary [c] random) = none := by
  refine ⟨rfl, ?_⟩
  unfold target
  rw [if_neg]
  simp only [temporary, List.length_append, List.length_cons, List.length_nil, hr, SUFFIX]
  omega

/-- A checkpoint is no copy: what is written afterwards gets into it. -/
theorem observation_checkpoint_counterexample :
    ∃ s s' i, run 5 (start none) [.create 1 0, .write 1 [65#8], .flush 1 1, .checkpoint 1 0] = some s ∧
      s.dir (.check 0) = some i ∧ s.data i = [65#8] ∧
      run 5 s [.write 1 [66#8], .flush 1 1] = some s' ∧ s'.dir (.check 0) = some i ∧ s'.data i = [65#8, 66#8] :=
  ⟨_, _, 1, rfl, rfl, rfl, rfl, rfl, rfl⟩

/-- If `fchmod` or `fdopen` fails in create, the temporary file stays. -/
theorem observation_create_counterexample :
    ∃ s, run 5 (start none) [.createLeak 1 0] = some s ∧ s.pc 1 = .refused (some 0) ∧ s.dir (.temp 0) ≠ none :=
  ⟨_, rfl, rfl, by decide⟩

/-- Two observations of the same path, of which one crashes, to which the theorems apply. -/
example : ∃ s, run 5 (start (some [1#8])) [.create 1 0, .create 2 1, .write 1 [2#8, 3#8], .write 2 [4#8], .flush 1 1, .commit 2,
      .flush 1 1, .rename 2, .crash 1] = some s ∧ contents s = some [4#8] ∧ s.commits = [2] := ⟨_, rfl, rfl, rfl⟩

end Diminuto.Observation
