import Verif.SectionSpec

/-!
# Lemmas: critical sections
-/

namespace Diminuto.Section

variable {σ A L R : Type}

/-- The section that a thread is in. -/
def now (th : Thread A L R) : List (Bool × A) := match th.running with | some (b, a, _) => [(b, a)] | none => []

/-- What holds in every state of the process. -/
structure Inv (m : Body σ A L R) (todo : Nat → List (Bool × A)) (s : σ) (x : Sys σ A L R) (h : List (Nat × Bool × A × Event R)) : Prop where
  told : ∀ t, (x.threads t).results = told t h
  asked : ∀ t, asked t h ++ now (x.threads t) ++ (x.threads t).todo = todo t
  holds : ∀ t, (x.threads t).running ≠ none ↔ x.holder = some t
  live : ∀ t, (x.threads t).running ≠ none → (x.threads t).cancelled = false
  free : x.holder = none → Serial m s h x.world
  inside : ∀ t b a l, (x.threads t).running = some (b, a, .inl l) → ∃ p, Serial m s h p ∧ Part m a p l x.world
  ended : ∀ t b a r, (x.threads t).running = some (b, a, .inr r) → ∃ p, Serial m s h p ∧ Whole m a p r x.world

/-- What an event tells the thread. -/
def Event.tells : Event R → List (Option R)
  | .done r => [some r]
  | .cut => []
  | .skipped => [none]

theorem told_append (t u : Nat) (h : List (Nat × Bool × A × Event R)) (b : Bool) (a : A) (e : Event R) :
    told t (h ++ [(u, b, a, e)]) = told t h ++ (if u = t then e.tells else []) := by
  simp only [told, List.filterMap_append]
  congr 1
  by_cases hu : u = t
  · cases e <;> simp [hu, Event.tells]
  · simp [hu]

theorem asked_append (t u : Nat) (h : List (Nat × Bool × A × Event R)) (b : Bool) (a : A) (e : Event R) :
    asked t (h ++ [(u, b, a, e)]) = asked t h ++ (if u = t then [(b, a)] else []) := by
  simp only [asked, List.filterMap_append]
  congr 1
  by_cases hu : u = t
  · simp [hu]
  · simp [hu]

/-- A section that has been skipped may have been so before the one that is going on. -/
theorem serial_skip {m : Body σ A L R} {s p : σ} {h : List (Nat × Bool × A × Event R)} (hs : Serial m s h p) (t : Nat) (a : A) : Serial m s (h ++ [(t, true, a, .skipped)]) p := .skipped t a hs

theorem inv_step {m : Body σ A L R} {todo : Nat → List (Bool × A)} {s : σ} {x y : Sys σ A L R} {h : List (Nat × Bool × A × Event R)} (hi : Inv m todo s x h) (hs : Step m x y) :
    ∃ h', Inv m todo s y h' := by
  have only : ∀ t u, (x.threads t).running ≠ none → (x.threads u).running ≠ none → t = u := by
    intro t u ht hu
    have h1 := (hi.holds t).mp ht
    rw [(hi.holds u).mp hu] at h1
    exact (Option.some.inj h1).symm
  cases hs with
  | lock t b a rest results ht hh =>
    have hn : ∀ u, (x.threads u).running = none := by
      intro u
      cases hu : (x.threads u).running with
      | none => rfl
      | some z => have := (hi.holds u).mp (by rw [hu]; simp); rw [hh] at this; cases this
    refine ⟨h, ?_, ?_, ?_, ?_, ?_, ?_, ?_⟩
    · intro u
      by_cases e : u = t
      · subst e; have := hi.told u; rw [ht] at this; simpa [Sys.put] using this
      · simpa [Sys.put, e] using hi.told u
    · intro u
      by_cases e : u = t
      · subst e; have := hi.asked u; rw [ht] at this; simpa [Sys.put, now] using this
      · simpa [Sys.put, e] using hi.asked u
    · intro u
      by_cases e : u = t
      · subst e; simp [Sys.put]
      · simp [Sys.put, e, hn u]; exact fun h => e h.symm
    · intro u
      by_cases e : u = t
      · subst e; simp [Sys.put]
      · simpa [Sys.put, e] using hi.live u
    · intro hf; simp [Sys.put] at hf
    · intro u b' a' l' hu
      by_cases e : u = t
      · subst e
        simp [Sys.put] at hu
        obtain ⟨rfl, rfl, rfl⟩ := hu
        exact ⟨x.world, hi.free hh, .nil⟩
      · simp [Sys.put, e, hn u] at hu
    · intro u b' a' l' hu
      by_cases e : u = t
      · subst e; simp [Sys.put] at hu
      · simp [Sys.put, e, hn u] at hu
  | busy t a rest results ht hh =>
    refine ⟨h ++ [(t, true, a, .skipped)], ?_, ?_, ?_, ?_, ?_, ?_, ?_⟩
    · intro u
      rw [told_append]
      by_cases e : u = t
      · subst e; have := hi.told u; rw [ht] at this; simp at this; simp [Sys.put, this, Event.tells]
      · simpa [Sys.put, e, Ne.symm e] using hi.told u
    · intro u
      rw [asked_append]
      by_cases e : u = t
      · subst e; have := hi.asked u; rw [ht] at this; simpa [Sys.put, now] using this
      · simpa [Sys.put, e, Ne.symm e] using hi.asked u
    · intro u
      by_cases e : u = t
      · subst e; have := hi.holds u; rw [ht] at this; simpa [Sys.put] using this
      · simpa [Sys.put, e] using hi.holds u
    · intro u
      by_cases e : u = t
      · subst e; simp [Sys.put]
      · simpa [Sys.put, e] using hi.live u
    · intro hf; exact absurd hf hh
    · intro u b' a' l' hu
      by_cases e : u = t
      · subst e; simp [Sys.put] at hu
      · simp [Sys.put, e] at hu
        obtain ⟨p, h1, h2⟩ := hi.inside u b' a' l' hu
        exact ⟨p, serial_skip h1 t a, h2⟩
    · intro u b' a' r' hu
      by_cases e : u = t
      · subst e; simp [Sys.put] at hu
      · simp [Sys.put, e] at hu
        obtain ⟨p, h1, h2⟩ := hi.ended u b' a' r' hu
        exact ⟨p, serial_skip h1 t a, h2⟩
  | body t b a l rest results ht =>
    have hr : (x.threads t).running ≠ none := by rw [ht]; simp
    obtain ⟨p, h1, h2⟩ := hi.inside t b a l (by rw [ht])
    refine ⟨h, ?_, ?_, ?_, ?_, ?_, ?_, ?_⟩
    · intro u
      by_cases e : u = t
      · subst e; have := hi.told u; rw [ht] at this; simpa [Sys.put] using this
      · simpa [Sys.put, e] using hi.told u
    · intro u
      by_cases e : u = t
      · subst e; have := hi.asked u; rw [ht] at this; simpa [Sys.put, now] using this
      · simpa [Sys.put, e] using hi.asked u
    · intro u
      by_cases e : u = t
      · subst e; have := (hi.holds u).mp hr; simp [Sys.put, this]
      · simpa [Sys.put, e] using hi.holds u
    · intro u
      by_cases e : u = t
      · subst e; simp [Sys.put]
      · simpa [Sys.put, e] using hi.live u
    · intro hf
      have := (hi.holds t).mp hr
      simp only [Sys.put] at hf
      rw [hf] at this; cases this
    · intro u b' a' l' hu
      by_cases e : u = t
      · subst e
        simp [Sys.put] at hu
        obtain ⟨rfl, rfl, h3⟩ := hu
        exact ⟨p, h1, .more h2 (Prod.ext h3 rfl)⟩
      · exfalso
        have : (x.threads u).running ≠ none := by
          simp [Sys.put, e] at hu
          rw [hu]; simp
        exact e (only u t this hr)
    · intro u b' a' r' hu
      by_cases e : u = t
      · subst e
        simp [Sys.put] at hu
        obtain ⟨rfl, rfl, h3⟩ := hu
        exact ⟨p, h1, l, x.world, h2, Prod.ext h3 rfl⟩
      · exfalso
        have : (x.threads u).running ≠ none := by
          simp [Sys.put, e] at hu
          rw [hu]; simp
        exact e (only u t this hr)
  | unlock t b a r rest results ht =>
    have hr : (x.threads t).running ≠ none := by rw [ht]; simp
    have hn : ∀ u, u ≠ t → (x.threads u).running = none := by
      intro u e
      cases hu : (x.threads u).running with
      | none => rfl
      | some z => exact absurd (only u t (by rw [hu]; simp) hr) e
    obtain ⟨p, h1, h2⟩ := hi.ended t b a r (by rw [ht])
    refine ⟨h ++ [(t, b, a, .done r)], ?_, ?_, ?_, ?_, ?_, ?_, ?_⟩
    · intro u
      rw [told_append]
      by_cases e : u = t
      · subst e; have := hi.told u; rw [ht] at this; simp at this; simp [Sys.put, this, Event.tells]
      · simpa [Sys.put, e, Ne.symm e] using hi.told u
    · intro u
      rw [asked_append]
      by_cases e : u = t
      · subst e; have := hi.asked u; rw [ht] at this; simpa [Sys.put, now] using this
      · simpa [Sys.put, e, Ne.symm e] using hi.asked u
    · intro u
      by_cases e : u = t
      · subst e; simp [Sys.put]
      · simp [Sys.put, e, hn u e]
    · intro u
      by_cases e : u = t
      · subst e; simp [Sys.put]
      · simpa [Sys.put, e] using hi.live u
    · intro _; exact .done t b a h1 h2
    · intro u b' a' l' hu
      by_cases e : u = t
      · subst e; simp [Sys.put] at hu
      · simp [Sys.put, e, hn u e] at hu
    · intro u b' a' l' hu
      by_cases e : u = t
      · subst e; simp [Sys.put] at hu
      · simp [Sys.put, e, hn u e] at hu
  | cancel t b a l rest results ht =>
    have hr : (x.threads t).running ≠ none := by rw [ht]; simp
    have hn : ∀ u, u ≠ t → (x.threads u).running = none := by
      intro u e
      cases hu : (x.threads u).running with
      | none => rfl
      | some z => exact absurd (only u t (by rw [hu]; simp) hr) e
    obtain ⟨p, h1, h2⟩ := hi.inside t b a l (by rw [ht])
    refine ⟨h ++ [(t, b, a, .cut)], ?_, ?_, ?_, ?_, ?_, ?_, ?_⟩
    · intro u
      rw [told_append]
      by_cases e : u = t
      · subst e; have := hi.told u; rw [ht] at this; simp at this; simp [Sys.put, this, Event.tells]
      · simpa [Sys.put, e, Ne.symm e] using hi.told u
    · intro u
      rw [asked_append]
      by_cases e : u = t
      · subst e; have := hi.asked u; rw [ht] at this; simpa [Sys.put, now] using this
      · simpa [Sys.put, e, Ne.symm e] using hi.asked u
    · intro u
      by_cases e : u = t
      · subst e; simp [Sys.put]
      · simp [Sys.put, e, hn u e]
    · intro u
      by_cases e : u = t
      · subst e; simp [Sys.put]
      · simpa [Sys.put, e] using hi.live u
    · intro _; exact .cut t b a h1 h2
    · intro u b' a' l' hu
      by_cases e : u = t
      · subst e; simp [Sys.put] at hu
      · simp [Sys.put, e, hn u e] at hu
    · intro u b' a' l' hu
      by_cases e : u = t
      · subst e; simp [Sys.put] at hu
      · simp [Sys.put, e, hn u e] at hu

theorem inv_steps {m : Body σ A L R} {todo : Nat → List (Bool × A)} {s : σ} {x : Sys σ A L R} (hs : Steps m (start todo s) x) : ∃ h, Inv m todo s x h := by
  induction hs with
  | here =>
    exact ⟨[], fun t => rfl, fun t => by simp [start, asked, now], fun t => by simp [start], fun t h => by simp [start] at h, fun _ => .nil, fun t b a l h => by simp [start] at h,
      fun t b a r h => by simp [start] at h⟩
  | step _ h ih =>
    obtain ⟨k, hk⟩ := ih
    exact inv_step hk h

theorem adder_part {a s : Int} {l : Int × Option Int} {s' : Int} (h : Part adder a s l s') : s' = s ∧ (l = (a, none) ∨ l = (a, some s)) := by
  induction h with
  | nil => exact ⟨rfl, Or.inl rfl⟩
  | more hp hq ih =>
    obtain ⟨rfl, rfl | rfl⟩ := ih
    · simp only [adder, Prod.mk.injEq, Sum.inl.injEq] at hq
      exact ⟨hq.2.symm, Or.inr hq.1.symm⟩
    · simp [adder] at hq

theorem adder_whole {a s r s' : Int} (h : Whole adder a s r s') : r = s ∧ s' = s + a := by
  obtain ⟨l, p, hp, hq⟩ := h
  obtain ⟨rfl, rfl | rfl⟩ := adder_part hp
  · simp [adder] at hq
  · simp only [adder, Prod.mk.injEq, Sum.inr.injEq] at hq
    exact ⟨hq.1.symm, hq.2.symm⟩

theorem sum_append (h k : List (Nat × Bool × Int × Event Int)) : sum (h ++ k) = sum h + sum k := by
  induction h with
  | nil => simp [sum]
  | cons e h ih =>
    obtain ⟨t, b, a, e⟩ := e
    cases e <;> simp only [List.cons_append, sum, ih] <;> omega

theorem adder_serial {s s' : Int} {h : List (Nat × Bool × Int × Event Int)} (hs : Serial adder s h s') : s' = s + sum h := by
  induction hs with
  | nil => simp [sum]
  | done t b a _ hw ih =>
    obtain ⟨rfl, rfl⟩ := adder_whole hw
    rw [sum_append, ih]
    simp only [sum]; omega
  | cut t b a _ hp ih =>
    obtain ⟨rfl, -⟩ := adder_part hp
    rw [sum_append, ih]
    simp only [sum]; omega
  | skipped t a _ ih =>
    rw [sum_append, ih]
    simp only [sum]; omega

end Diminuto.Section
