import Verif.SpinLemmas

/-!
# The Serialized Section feature
-/

namespace Diminuto.Spin
open Section (Body Thread Serial told asked Part Whole adder)

variable {σ A L R : Type}

/-- C114.  No two threads are ever in a section, and the lock is set while one is. -/
theorem spin_exclusive (m : Body σ A L R) (todo : Nat → List (Bool × A)) (s : σ) (x : Sys σ A L R) (hx : Steps m (start todo s) x) :
    (∀ t u, (x.threads t).running ≠ none → (x.threads u).running ≠ none → t = u) ∧ (Occupied x → x.lock ≠ 0) := by
  have hi := inv_steps hx
  exact ⟨hi.one, fun ⟨t, ht⟩ => hi.locked t ht⟩

/-- C114.  Claimed: the effect of all sections is that of executing them one after the other, and each thread gets the results of that.  Shown here for threads that are not cancelled in a section. -/
theorem spin_serial_partial (m : Body σ A L R) (todo : Nat → List (Bool × A)) (s : σ) (x : Sys σ A L R) (hx : Steps m (start todo s) x) (hc : Uncancelled x) (hf : ¬ Occupied x) :
    (∃ h, Serial m s h x.world ∧ (∀ t, (x.threads t).results = told t h) ∧ (∀ t, asked t h ++ (x.threads t).todo = todo t)) ∧ x.lock = 0 := by
  obtain ⟨y, hy, h1, h2, h3⟩ := simulated hx hc
  obtain ⟨h, hi⟩ := Section.inv_steps hy
  have hn : ∀ t, (y.threads t).running = none := by
    intro t
    rw [h1]
    cases ht : (x.threads t).running with
    | none => rfl
    | some v => exact absurd ⟨t, by rw [ht]; simp⟩ hf
  have hh : y.holder = none := by
    cases he : y.holder with
    | none => rfl
    | some t => exact absurd (hn t) ((hi.holds t).mpr he)
  refine ⟨⟨h, h2 ▸ hi.free hh, fun t => h1 ▸ hi.told t, fun t => ?_⟩, h3.mp hh⟩
  have := hi.asked t
  rw [Section.now, hn t, h1] at this
  simpa using this

/-- C114.  A thread that tries enters if no other thread is in a section, and if one is then it goes on without entering; it never waits. -/
theorem spin_try_partial (m : Body σ A L R) (todo : Nat → List (Bool × A)) (s : σ) (x y : Sys σ A L R) (hx : Steps m (start todo s) x) (hc : Uncancelled x) (h : Step m x y) (t : Nat) (a : A)
    (rest : List (Bool × A)) (ht : (x.threads t).todo = (true, a) :: rest) (hn : (x.threads t).running = none) (hy : y.threads t ≠ x.threads t) :
    (y.threads t).todo = rest ∧ (Occupied x → (y.threads t).running = none ∧ (y.threads t).results = (x.threads t).results ++ [none]) ∧
      (¬ Occupied x → (y.threads t).running = some (true, a, .inl (m.init a))) := by
  have hi := inv_steps hx
  have hl : ¬ Occupied x → x.lock = 0 := fun hf => (spin_serial_partial m todo s x hx hc hf).2
  have key : ∀ (u : Nat) (th : Thread A L R) (l : Int) (w : σ), (x.put u th l w).threads t ≠ x.threads t → u = t ∧ (x.put u th l w).threads t = th := by
    intro u th l w h
    by_cases he : t = u
    · subst he; exact ⟨rfl, by simp [Sys.put]⟩
    · exact absurd (by simp [Sys.put, he]) h
  cases h with
  | enter u b a' rest' results h hl' =>
    obtain ⟨rfl, e⟩ := key _ _ _ _ hy
    rw [h] at ht
    injection ht with ht1 ht2
    injection ht1 with ht1 ht3
    subst ht1 ht2 ht3
    rw [e]
    exact ⟨rfl, fun ⟨v, hv⟩ => absurd hl' (hi.locked v hv), fun _ => rfl⟩
  | spin u a' rest' results h hl' =>
    obtain ⟨rfl, e⟩ := key _ _ _ _ hy
    rw [h] at ht
    injection ht with ht1 ht2
    injection ht1 with ht1 ht3
    cases ht1
  | busy u a' rest' results h hl' =>
    obtain ⟨rfl, e⟩ := key _ _ _ _ hy
    rw [h] at ht
    injection ht with ht1 ht2
    subst ht2
    rw [e, h]
    exact ⟨rfl, fun _ => ⟨rfl, rfl⟩, fun hf => absurd (hl hf) hl'⟩
  | body u b a' l td results h => obtain ⟨rfl, e⟩ := key _ _ _ _ hy; rw [h] at hn; cases hn
  | release u b a' r td results h => obtain ⟨rfl, e⟩ := key _ _ _ _ hy; rw [h] at hn; cases hn
  | cancel u b a' l td results h => obtain ⟨rfl, e⟩ := key _ _ _ _ hy; rw [h] at hn; cases hn

/-- C114.  Claimed: the threads go on.  Shown here for threads that are not cancelled: as long as there is a thread that has something to do there is a step that is not one of a thread that waits. -/
theorem spin_progress_partial (m : Body σ A L R) (todo : Nat → List (Bool × A)) (s : σ) (x : Sys σ A L R) (hx : Steps m (start todo s) x) (hc : Uncancelled x) (t : Nat)
    (hd : (x.threads t).todo ≠ [] ∨ (x.threads t).running ≠ none) : ∃ y u, Step m x y ∧ ((y.threads u).todo ≠ (x.threads u).todo ∨ (x.threads u).running ≠ none) := by
  by_cases ho : Occupied x
  · obtain ⟨u, hu⟩ := ho
    rcases hth : x.threads u with ⟨td, rn, rs, cn⟩
    have hcu := hc u
    rw [hth] at hu hcu
    simp only at hu hcu
    subst hcu
    match rn, hu with
    | some (b, a, .inl l), _ => exact ⟨_, u, .body u b a l td rs hth, Or.inr (by rw [hth]; simp)⟩
    | some (b, a, .inr r), _ => exact ⟨_, u, .release u b a r td rs hth, Or.inr (by rw [hth]; simp)⟩
  · have hl := (spin_serial_partial m todo s x hx hc ho).2
    rcases hth : x.threads t with ⟨td, rn, rs, cn⟩
    have hct := hc t
    have hrn : rn = none := by
      cases hr : rn with
      | none => rfl
      | some v => exact absurd ⟨t, by rw [hth, hr]; simp⟩ ho
    rw [hth, hrn] at hd
    rw [hth] at hct
    simp only at hd hct
    subst hct hrn
    match td, hd with
    | [], hd => rcases hd with h | h <;> exact absurd rfl h
    | (b, a) :: rest, _ => exact ⟨_, t, .enter t b a rest rs hth hl, Or.inl (by rw [hth]; simp [Sys.put])⟩

/-- C114, refuted.  Once a thread has been cancelled in a section no thread ever enters another one: there is no cleanup handler that would release the lock. -/
theorem spin_cancel_never (m : Body σ A L R) (todo : Nat → List (Bool × A)) (s : σ) (x y : Sys σ A L R) (hx : Steps m (start todo s) x) (t : Nat) (hc : (x.threads t).cancelled = true) (hy : Steps m x y) :
    y.lock ≠ 0 ∧ ¬ Occupied y ∧ ∀ u a rest, (x.threads u).todo = (false, a) :: rest → (y.threads u).todo = (false, a) :: rest := by
  have hall : Steps m (start todo s) y ∧ (y.threads t).cancelled = true ∧ ∀ u a rest, (x.threads u).todo = (false, a) :: rest → (y.threads u).todo = (false, a) :: rest := by
    induction hy with
    | here => exact ⟨hx, hc, fun _ _ _ h => h⟩
    | @step y z hs h ih =>
      obtain ⟨h1, h2, h3⟩ := ih
      refine ⟨.step h1 h, by rw [cancelled_step h t h2]; exact h2, fun u a rest hu => ?_⟩
      have h3 := h3 u a rest hu
      have hd := (inv_steps h1).dead t h2
      cases h with
      | enter v b a' rest' results h hl => exact absurd hl hd.1
      | spin v a' rest' results h hl =>
        by_cases he : u = v
        · subst he; rw [h] at h3; simpa [Sys.put] using h3
        · simpa [Sys.put, he] using h3
      | busy v a' rest' results h hl =>
        by_cases he : u = v
        · subst he; rw [h] at h3; injection h3 with h3; injection h3 with h3; cases h3
        · simpa [Sys.put, he] using h3
      | body v b a' l td results h => have := hd.2 v; rw [h] at this; cases this
      | release v b a' r td results h => have := hd.2 v; rw [h] at this; cases this
      | cancel v b a' l td results h => have := hd.2 v; rw [h] at this; cases this
  have hd := (inv_steps hall.1).dead t hall.2.1
  exact ⟨hd.1, fun ⟨u, hu⟩ => hu (hd.2 u), hall.2.2⟩

/-- Two threads that add to a variable; the first one is in its section. -/
theorem entered : Steps adder (start (fun t => if t = 0 then [(false, 3)] else if t = 1 then [(false, 4)] else []) 10)
    ((start (fun t => if t = 0 then [(false, 3)] else if t = 1 then [(false, 4)] else []) 10 : Sys Int Int (Int × Option Int) Int).put 0 ⟨[], some (false, 3, .inl (3, none)), [], false⟩ 1 10) :=
  .step .here (.enter 0 false 3 [] [] rfl rfl)

/-- C114, refuted: the first of these is cancelled, and the second never enters. -/
theorem spin_cancel_counterexample : ∃ x, Steps adder (start (fun t => if t = 0 then [(false, 3)] else if t = 1 then [(false, 4)] else []) 10) x ∧ (x.threads 0).cancelled = true ∧
    ∀ y, Steps adder x y → (y.threads 1).todo = [(false, 4)] ∧ (y.threads 1).running = none := by
  refine ⟨_, .step entered (.cancel 0 false 3 (3, none) [] [] rfl), rfl, fun y hy => ?_⟩
  obtain ⟨-, ho, h⟩ := spin_cancel_never adder _ 10 _ y (.step entered (.cancel 0 false 3 (3, none) [] [] rfl)) 0 rfl hy
  refine ⟨h 1 4 [] rfl, ?_⟩
  cases hr : (y.threads 1).running with
  | none => rfl
  | some v => exact absurd ⟨1, by rw [hr]; simp⟩ ho

/-- The first of them leaves it again. -/
example : ∃ x : Sys Int Int (Int × Option Int) Int, Steps adder (start (fun t => if t = 0 then [(false, 3)] else if t = 1 then [(false, 4)] else []) 10) x ∧ Uncancelled x ∧ ¬ Occupied x ∧ x.world = 13 ∧
    (x.threads 1).todo ≠ [] := by
  refine ⟨_, .step (.step (.step entered (.body 0 false 3 (3, none) [] [] rfl)) (.body 0 false 3 (3, some 10) [] [] rfl)) (.release 0 false 3 10 [] [] rfl), ?_, ?_, rfl, ?_⟩
  · intro t; by_cases h : t = 0 <;> simp [Sys.put, start, h]
  · rintro ⟨t, ht⟩; by_cases h : t = 0 <;> simp [Sys.put, start, h] at ht
  · simp [Sys.put, start]

/-- A thread that tries while another one is in a section. -/
example : ∃ x y : Sys Int Int (Int × Option Int) Int, Steps adder (start (fun t => if t = 0 then [(false, 3)] else if t = 1 then [(true, 4)] else []) 10) x ∧ Uncancelled x ∧ Occupied x ∧ Step adder x y ∧
    (y.threads 1).results = [none] := by
  refine ⟨_, _, .step .here (.enter 0 false 3 [] [] rfl rfl), ?_, ⟨0, by simp [Sys.put]⟩, .busy 1 4 [] [] rfl (by simp [Sys.put]), by simp [Sys.put]⟩
  intro t; by_cases h : t = 0 <;> simp [Sys.put, start, h]

end Diminuto.Spin
