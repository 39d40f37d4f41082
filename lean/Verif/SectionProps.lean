import Verif.SectionLemmas

/-!
# Critical sections and Atomic Apply
-/

namespace Diminuto.Section

variable {σ A L R : Type}

/-- C100.  However the threads of a process are scheduled and cancelled, the sections that they have entered were executed one after the other, each as if there had been no other thread, in an
order that is that of every thread; every thread has the results of its own.  A section with `TRY` may have been left out, and then it did nothing. -/
theorem section_serial (m : Body σ A L R) (todo : Nat → List (Bool × A)) (s : σ) (x : Sys σ A L R) (hx : Steps m (start todo s) x) (hf : ∀ t, (x.threads t).running = none) :
    ∃ h, Serial m s h x.world ∧ (∀ t, (x.threads t).results = told t h) ∧ (∀ t, asked t h ++ (x.threads t).todo = todo t) := by
  obtain ⟨h, hi⟩ := inv_steps hx
  refine ⟨h, hi.free ?_, hi.told, fun t => ?_⟩
  · cases hh : x.holder with
    | none => rfl
    | some t => exact absurd (hf t) ((hi.holds t).mpr hh)
  · have := hi.asked t
    simpa [now, hf t] using this

/-- C100.  There is at most one thread in a section, it holds the mutex, and no other thread has changed the protected state since it entered. -/
theorem section_exclusive (m : Body σ A L R) (todo : Nat → List (Bool × A)) (s : σ) (x : Sys σ A L R) (hx : Steps m (start todo s) x) :
    (∀ t, (x.threads t).running ≠ none ↔ x.holder = some t) ∧ (∀ t u, (x.threads t).running ≠ none → (x.threads u).running ≠ none → t = u) ∧
    (∀ t b a l, (x.threads t).running = some (b, a, .inl l) → ∃ h p, Serial m s h p ∧ Part m a p l x.world) ∧
    ∀ t b a r, (x.threads t).running = some (b, a, .inr r) → ∃ h p, Serial m s h p ∧ Whole m a p r x.world := by
  obtain ⟨h, hi⟩ := inv_steps hx
  refine ⟨hi.holds, fun t u ht hu => ?_, fun t b a l ht => ⟨h, hi.inside t b a l ht⟩, fun t b a r ht => ⟨h, hi.ended t b a r ht⟩⟩
  have h1 := (hi.holds t).mp ht
  rw [(hi.holds u).mp hu] at h1
  exact (Option.some.inj h1).symm

/-- C100.  The mutex is always given back, also by a thread that is cancelled: as long as a thread that has not been cancelled has something to do, some thread can make a step; and a thread that
tries never waits. -/
theorem section_progress (m : Body σ A L R) (todo : Nat → List (Bool × A)) (s : σ) (x : Sys σ A L R) (hx : Steps m (start todo s) x) (t : Nat) (hc : (x.threads t).cancelled = false)
    (hd : (x.threads t).todo ≠ [] ∨ (x.threads t).running ≠ none) :
    (∃ y, Step m x y) ∧ (((x.threads t).running ≠ none ∨ ∃ a rest, (x.threads t).todo = (true, a) :: rest) → ∃ y, Step m x y ∧ ∀ u, u ≠ t → y.threads u = x.threads u) := by
  obtain ⟨h, hi⟩ := inv_steps hx
  have go : ∀ u, (x.threads u).running ≠ none → ∃ y, Step m x y ∧ ∀ v, v ≠ u → y.threads v = x.threads v := by
    intro u hu
    have hl := hi.live u hu
    rcases hth : x.threads u with ⟨td, rn, rs, cn⟩
    rw [hth] at hu hl
    simp only [] at hu hl
    subst hl
    match rn, hu with
    | some (b, a, .inl l), _ => exact ⟨_, .body u b a l td rs hth, fun v hv => by simp [Sys.put, hv]⟩
    | some (b, a, .inr r), _ => exact ⟨_, .unlock u b a r td rs hth, fun v hv => by simp [Sys.put, hv]⟩
  have other : (x.threads t).running = none → ((∃ y, Step m x y) ∧ ((∃ a rest, (x.threads t).todo = (true, a) :: rest) → ∃ y, Step m x y ∧ ∀ u, u ≠ t → y.threads u = x.threads u)) := by
    intro hr
    rcases hth : x.threads t with ⟨td, rn, rs, cn⟩
    rw [hth] at hd hc hr
    simp only [] at hd hc hr
    subst hc hr
    cases hh : x.holder with
    | some u =>
      refine ⟨?_, ?_⟩
      · obtain ⟨y, hy, -⟩ := go u ((hi.holds u).mpr hh)
        exact ⟨y, hy⟩
      · rintro ⟨a, rest, ha⟩
        simp only [] at ha
        subst ha
        exact ⟨_, .busy t a rest rs hth (by rw [hh]; simp), fun v hv => by simp [Sys.put, hv]⟩
    | none =>
      match td, hd with
      | [], hd => simp at hd
      | (b, a) :: rest, _ =>
        have := Step.lock (m := m) t b a rest rs hth hh
        exact ⟨⟨_, this⟩, fun _ => ⟨_, this, fun v hv => by simp [Sys.put, hv]⟩⟩
  by_cases hr : (x.threads t).running = none
  · obtain ⟨h1, h2⟩ := other hr
    refine ⟨h1, ?_⟩
    rintro (h3 | h3)
    · exact absurd hr h3
    · exact h2 h3
  · obtain ⟨y, hy, hv⟩ := go t hr
    exact ⟨⟨y, hy⟩, fun _ => ⟨y, hy, hv⟩⟩

/-- C100.  Atomic Apply loses no update: with a functor that loads the variable and stores the sum later, the variable has the sum of all that has been added, whatever the threads and their
scheduling, and every call returned the value before its own. -/
theorem atomic_apply_adds (todo : Nat → List (Bool × Int)) (s : Int) (x : Sys Int Int (Int × Option Int) Int) (hx : Steps adder (start todo s) x) (hf : ∀ t, (x.threads t).running = none) :
    ∃ h, x.world = s + sum h ∧ (∀ t, (x.threads t).results = told t h) ∧ (∀ t, asked t h ++ (x.threads t).todo = todo t) ∧
      ∀ h1 t b a r h2, h = h1 ++ (t, b, a, .done r) :: h2 → r = s + sum h1 := by
  obtain ⟨h, h1, h2, h3⟩ := section_serial adder todo s x hx hf
  refine ⟨h, adder_serial h1, h2, h3, ?_⟩
  clear h2 h3
  generalize x.world = z at h1
  induction h1 with
  | nil => intro h1 t b a r h2 he; simp at he
  | @done h p q r0 t0 b0 a0 hs hw ih =>
    intro h1 t b a r h2 he
    rcases List.eq_nil_or_concat h2 with rfl | ⟨h3, e, rfl⟩
    · have := List.append_inj' he rfl
      obtain ⟨rfl, hl⟩ := this
      simp only [List.cons.injEq, Prod.mk.injEq, Event.done.injEq, and_true] at hl
      obtain ⟨rfl, rfl, rfl, rfl⟩ := hl
      rw [(adder_whole hw).1, adder_serial hs]
    · rw [List.concat_eq_append, ← List.cons_append, ← List.append_assoc] at he
      exact ih h1 t b a r h3 (List.append_inj' he rfl).1
  | @cut h p q l t0 b0 a0 hs hw ih =>
    intro h1 t b a r h2 he
    rcases List.eq_nil_or_concat h2 with rfl | ⟨h3, e, rfl⟩
    · have := (List.append_inj' he rfl).2
      simp at this
    · rw [List.concat_eq_append, ← List.cons_append, ← List.append_assoc] at he
      exact ih h1 t b a r h3 (List.append_inj' he rfl).1
  | @skipped h p t0 a0 hs ih =>
    intro h1 t b a r h2 he
    rcases List.eq_nil_or_concat h2 with rfl | ⟨h3, e, rfl⟩
    · have := (List.append_inj' he rfl).2
      simp at this
    · rw [List.concat_eq_append, ← List.cons_append, ← List.append_assoc] at he
      exact ih h1 t b a r h3 (List.append_inj' he rfl).1

/-- Two threads that add to the same variable, the second of which tries once while the first is in the section: the process can come to an end, and the variable has the sum of what was added. -/
example : ∃ x, Steps adder (start (fun t => if t = 0 then [(false, 5)] else if t = 1 then [(true, 7), (false, 2)] else []) 1) x ∧ (∀ t, (x.threads t).running = none) ∧
    x.world = 8 ∧ (x.threads 0).results = [some 1] ∧ (x.threads 1).results = [none, some 6] := by
  refine ⟨_, .step (.step (.step (.step (.step (.step (.step (.step (.step .here (.lock 0 false 5 [] [] rfl rfl)) (.body 0 false 5 (5, none) [] [] rfl))
    (.busy 1 7 [(false, 2)] [] rfl (by simp [Sys.put]))) (.body 0 false 5 (5, some 1) [] [] rfl)) (.unlock 0 false 5 1 [] [] rfl)) (.lock 1 false 2 [] [none] rfl rfl))
    (.body 1 false 2 (2, none) [] [none] rfl)) (.body 1 false 2 (2, some 6) [] [none] rfl)) (.unlock 1 false 2 6 [] [none] rfl), ?_, rfl, rfl, rfl⟩
  intro t
  by_cases h1 : t = 1
  · subst h1; rfl
  · by_cases h0 : t = 0
    · subst h0; rfl
    · simp [Sys.put, start, h1, h0, adder]

end Diminuto.Section
