import Verif.SpinSpec
import Verif.SectionLemmas

/-!
# Lemmas for the Serialized Section feature
-/

namespace Diminuto.Spin
open Section (Body Thread)

variable {σ A L R : Type} {m : Body σ A L R}

/-- A thread that has been cancelled remains so. -/
theorem cancelled_step {x y : Sys σ A L R} (h : Step m x y) (t : Nat) (hc : (x.threads t).cancelled = true) : y.threads t = x.threads t := by
  have aux : ∀ (u : Nat) (th : Thread A L R) (l : Int) (w : σ), (x.threads u).cancelled = false → (x.put u th l w).threads t = x.threads t := by
    intro u th l w hu
    have : t ≠ u := by intro he; rw [he, hu] at hc; cases hc
    simp [Sys.put, this]
  cases h with
  | enter u b a rest results h hl => exact aux _ _ _ _ (by rw [h])
  | spin u a rest results h hl => exact aux _ _ _ _ (by rw [h])
  | busy u a rest results h hl => exact aux _ _ _ _ (by rw [h])
  | body u b a l todo results h => exact aux _ _ _ _ (by rw [h])
  | release u b a r todo results h => exact aux _ _ _ _ (by rw [h])
  | cancel u b a l todo results h => exact aux _ _ _ _ (by rw [h])

/-- What is true of every state: a thread is in a section only if the lock is set, at most one is, and none is if one has been cancelled, when the lock is set as well. -/
structure Inv (x : Sys σ A L R) : Prop where
  locked : ∀ t, (x.threads t).running ≠ none → x.lock ≠ 0
  one : ∀ t u, (x.threads t).running ≠ none → (x.threads u).running ≠ none → t = u
  dead : ∀ t, (x.threads t).cancelled = true → x.lock ≠ 0 ∧ ∀ u, (x.threads u).running = none

/-- It is true of the next state. -/
theorem inv_step {x y : Sys σ A L R} (hi : Inv x) (h : Step m x y) : Inv y := by
  have put_t : ∀ (t : Nat) (th : Thread A L R) (l : Int) (w : σ), (x.put t th l w).threads t = th := by intros; simp [Sys.put]
  have put_u : ∀ (t u : Nat) (th : Thread A L R) (l : Int) (w : σ), u ≠ t → (x.put t th l w).threads u = x.threads u := by intro t u th l w h; simp [Sys.put, h]
  cases h with
  | enter t b a rest results h hl =>
    refine ⟨fun u _ => (by decide : (1 : Int) ≠ 0), ?_, ?_⟩
    · intro u v hu hv
      have : ∀ u, ((x.put t ⟨rest, some (b, a, .inl (m.init a)), results, false⟩ 1 x.world).threads u).running ≠ none → u = t := by
        intro u hu
        by_cases he : u = t
        · exact he
        · rw [put_u t u _ _ _ he] at hu; exact absurd hl (hi.locked u hu)
      rw [this u hu, this v hv]
    · intro u hu
      by_cases he : u = t
      · rw [he, put_t] at hu; cases hu
      · rw [put_u t u _ _ _ he] at hu; exact absurd hl (hi.dead u hu).1
  | spin t a rest results h hl =>
    have hr : ∀ u, ((x.put t ⟨(false, a) :: rest, none, results, false⟩ 1 x.world).threads u) = x.threads u := by
      intro u
      by_cases he : u = t
      · rw [he, put_t, h]
      · rw [put_u t u _ _ _ he]
    refine ⟨fun u _ => (by decide : (1 : Int) ≠ 0), ?_, ?_⟩
    · intro u v; rw [hr, hr]; exact hi.one u v
    · intro u; rw [hr]; intro hu; exact ⟨(by decide : (1 : Int) ≠ 0), fun v => by rw [hr]; exact (hi.dead u hu).2 v⟩
  | busy t a rest results h hl =>
    have hr : ∀ u, ((x.put t ⟨rest, none, results ++ [none], false⟩ 1 x.world).threads u).running = (x.threads u).running := by
      intro u
      by_cases he : u = t
      · rw [he, put_t, h]
      · rw [put_u t u _ _ _ he]
    refine ⟨fun u _ => (by decide : (1 : Int) ≠ 0), ?_, ?_⟩
    · intro u v; rw [hr, hr]; exact hi.one u v
    · intro u hu
      refine ⟨(by decide : (1 : Int) ≠ 0), fun v => ?_⟩
      rw [hr]
      by_cases he : u = t
      · rw [he, put_t] at hu; cases hu
      · rw [put_u t u _ _ _ he] at hu; exact (hi.dead u hu).2 v
  | body t b a l todo results h =>
    have ht : (x.threads t).running ≠ none := by rw [h]; simp
    have hr : ∀ u, ((x.put t ⟨todo, some (b, a, (m.step l x.world).1), results, false⟩ x.lock (m.step l x.world).2).threads u).running ≠ none ↔ (x.threads u).running ≠ none := by
      intro u
      by_cases he : u = t
      · rw [he, put_t]; simp [ht]
      · rw [put_u t u _ _ _ he]
    refine ⟨fun u hu => hi.locked u ((hr u).mp hu), fun u v hu hv => hi.one u v ((hr u).mp hu) ((hr v).mp hv), ?_⟩
    intro u hu
    by_cases he : u = t
    · rw [he, put_t] at hu; cases hu
    · rw [put_u t u _ _ _ he] at hu; exact absurd ((hi.dead u hu).2 t) ht
  | release t b a r todo results h =>
    have ht : (x.threads t).running ≠ none := by rw [h]; simp
    have hr : ∀ u, ((x.put t ⟨todo, none, results ++ [some r], false⟩ 0 x.world).threads u).running = none := by
      intro u
      by_cases he : u = t
      · rw [he, put_t]
      · rw [put_u t u _ _ _ he]
        cases hu : (x.threads u).running with
        | none => rfl
        | some v => exact absurd (hi.one u t (by rw [hu]; simp) ht) he
    refine ⟨fun u hu => absurd (hr u) hu, fun u v hu => absurd (hr u) hu, ?_⟩
    intro u hu
    by_cases he : u = t
    · rw [he, put_t] at hu; cases hu
    · rw [put_u t u _ _ _ he] at hu; exact absurd ((hi.dead u hu).2 t) ht
  | cancel t b a l todo results h =>
    have ht : (x.threads t).running ≠ none := by rw [h]; simp
    have hr : ∀ u, ((x.put t ⟨todo, none, results, true⟩ x.lock x.world).threads u).running = none := by
      intro u
      by_cases he : u = t
      · rw [he, put_t]
      · rw [put_u t u _ _ _ he]
        cases hu : (x.threads u).running with
        | none => rfl
        | some v => exact absurd (hi.one u t (by rw [hu]; simp) ht) he
    exact ⟨fun u hu => absurd (hr u) hu, fun u v hu => absurd (hr u) hu, fun _ _ => ⟨hi.locked t ht, hr⟩⟩

/-- It is true of all states. -/
theorem inv_steps {todo : Nat → List (Bool × A)} {s : σ} {x : Sys σ A L R} (h : Steps m (start todo s) x) : Inv x := by
  induction h with
  | here => exact ⟨fun t h => absurd rfl h, fun t u h => absurd rfl h, fun t h => by cases h⟩
  | step _ h ih => exact inv_step ih h

/-- The same steps with a mutex, as long as no thread is cancelled. -/
theorem simulated {todo : Nat → List (Bool × A)} {s : σ} {x : Sys σ A L R} (h : Steps m (start todo s) x) (hc : Uncancelled x) :
    ∃ y, Section.Steps m (Section.start todo s) y ∧ y.threads = x.threads ∧ y.world = x.world ∧ (y.holder = none ↔ x.lock = 0) := by
  induction h with
  | here => exact ⟨_, .here, rfl, rfl, by simp [Section.start, start]⟩
  | @step y z hs h ih =>
    have hc' : Uncancelled y := by
      intro t
      cases he : (y.threads t).cancelled with
      | false => rfl
      | true => have := cancelled_step h t he; have h2 := hc t; rw [this, he] at h2; cases h2
    obtain ⟨w, hw, h1, h2, h3⟩ := ih hc'
    cases h with
    | enter t b a rest results h hl =>
      exact ⟨_, .step hw (.lock t b a rest results (by rw [h1, h]) (h3.mpr hl)), by simp only [Section.Sys.put, Sys.put, h1], h2, by simp [Section.Sys.put, Sys.put]⟩
    | spin t a rest results h hl =>
      refine ⟨w, hw, ?_, h2, ?_⟩
      · funext u
        simp only [Sys.put]
        by_cases he : u = t
        · rw [if_pos he, h1, he, h]
        · rw [if_neg he, h1]
      · simp only [Sys.put, h3]; simp [hl]
    | busy t a rest results h hl =>
      have hh : w.holder ≠ none := fun he => hl (h3.mp he)
      exact ⟨_, .step hw (.busy t a rest results (by rw [h1, h]) hh), by simp only [Section.Sys.put, Sys.put, h1], h2, by simp [Section.Sys.put, Sys.put, hh]⟩
    | body t b a l td results h =>
      exact ⟨_, .step hw (.body t b a l td results (by rw [h1, h])), by simp only [Section.Sys.put, Sys.put, h1, h2], by simp only [Section.Sys.put, Sys.put, h2], by simpa [Section.Sys.put, Sys.put] using h3⟩
    | release t b a r td results h =>
      exact ⟨_, .step hw (.unlock t b a r td results (by rw [h1, h])), by simp only [Section.Sys.put, Sys.put, h1], h2, by simp [Section.Sys.put, Sys.put]⟩
    | cancel t b a l td results h =>
      have := hc t
      simp [Sys.put] at this

end Diminuto.Spin
