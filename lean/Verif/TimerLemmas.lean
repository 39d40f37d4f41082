import Verif.TimerSpec

/-!
# Lemmas: the Timer
-/

namespace Diminuto.Timer

/-- In the proxy, between the critical sections. -/
def inside (s : State) (p : Nat) : Prop := s.proxy p = .running ∨ s.proxy p = .leaving

structure Inv (s : State) : Prop where
  one : ∀ p q, inside s p → inside s q → p = q
  run : ∀ p, s.proxy p = .running → s.phase ≠ .idle
  succ : ∀ t, s.app t = .settime true → s.phase = .idle
  busy : ∀ t, s.app t ≠ .idle → s.phase ≠ .arm
  alone : ∀ t u, s.app t = .waiting → u ≠ t → s.app u ≠ .idle → s.phase = .idle
  served : ∀ t, s.app t = .waiting → s.phase = .idle ∨ s.armed = true ∨
    ∃ p, s.proxy p = .created ∨ s.proxy p = .running ∨ s.proxy p = .leaving
  live : s.phase = .arm → s.armed = true ∨
    (s.periodic = false ∧ ∃ p, s.proxy p = .created ∨ s.proxy p = .running ∨ s.proxy p = .leaving)

theorem upd_same {β : Type} (f : Nat → β) (i : Nat) (x : β) : upd f i x i = x := by simp [upd]

theorem upd_ne {β : Type} (f : Nat → β) {i j : Nat} (x : β) (h : j ≠ i) : upd f i x j = f j := by simp [upd, h]

theorem upd_eq {β : Type} {f : Nat → β} {i j : Nat} {x y : β} (h : upd f i x j = y) : (j = i ∧ x = y) ∨ (j ≠ i ∧ f j = y) := by
  unfold upd at h
  split at h
  · rename_i hj; exact .inl ⟨hj, h⟩
  · rename_i hj; exact .inr ⟨hj, h⟩

theorem inv_init (periodic : Bool) : Inv (init periodic) := by
  refine ⟨?_, ?_, ?_, ?_, ?_, ?_, ?_⟩ <;> simp [init, inside]

theorem step_inv {s s' : State} (hi : Inv s) (e : Event) (ha : Apart s e) (h : step s e = some s') : Inv s' := by
  obtain ⟨hone, hrun, hsucc, hbusy, halone, hserved, hlive⟩ := hi
  cases e with
  | start t =>
    simp only [step] at h
    split at h
    · obtain rfl := Option.some.inj h
      simp only [Apart] at ha
      refine ⟨hone, ?_, ?_, ?_, ?_, ?_, fun _ => .inl rfl⟩
      · intro p _; simp
      · intro u hu; simp only [ha u] at hu; simp at hu
      · intro u hu; exact absurd (ha u) hu
      · intro u v hu; simp only [ha u] at hu; simp at hu
      · intro u hu; simp only [ha u] at hu; simp at hu
    · simp at h
  | expire p =>
    simp only [step] at h
    split at h
    · rename_i hc
      obtain rfl := Option.some.inj h
      have hin : ∀ q, inside { s with armed := s.periodic, proxy := upd s.proxy p .created } q → inside s q := by
        rintro q (hq | hq)
        · rcases upd_eq hq with ⟨-, h⟩ | ⟨-, h⟩
          · simp at h
          · exact .inl h
        · rcases upd_eq hq with ⟨-, h⟩ | ⟨-, h⟩
          · simp at h
          · exact .inr h
      refine ⟨?_, ?_, hsucc, hbusy, halone, ?_, ?_⟩
      · intro a b h1 h2
        exact hone a b (hin a h1) (hin b h2)
      · intro q hq
        rcases upd_eq hq with ⟨-, h⟩ | ⟨-, h⟩
        · simp at h
        · exact hrun q h
      · intro t _
        exact .inr (.inr ⟨p, .inl (upd_same _ _ _)⟩)
      · intro _
        cases hp : s.periodic with
        | true => exact .inl rfl
        | false => exact .inr ⟨rfl, p, .inl (upd_same _ _ _)⟩
    · simp at h
  | enter p =>
    simp only [step] at h
    split at h
    · rename_i hc
      obtain rfl := Option.some.inj h
      simp only [Apart] at ha
      have hin : ∀ q c, upd s.proxy p c q = .running ∨ upd s.proxy p c q = .leaving → q = p := by
        intro q c hq
        apply Classical.byContradiction
        intro hne
        rw [upd_ne _ _ hne] at hq
        rcases hq with hq | hq
        · exact (ha q hne).1 hq
        · exact (ha q hne).2 hq
      refine ⟨?_, ?_, hsucc, hbusy, halone, ?_, ?_⟩
      · intro a b h1 h2
        rw [hin a _ h1, hin b _ h2]
      · intro q hq
        simp only [] at hq ⊢
        have := hin q _ (.inl hq)
        subst this
        rw [upd_same] at hq
        split at hq
        · rename_i hph; rw [hph]; simp
        · simp at hq
      · intro t ht
        rcases hserved t ht with h | h | ⟨q, h⟩
        · exact .inl h
        · exact .inr (.inl h)
        · refine .inr (.inr ⟨p, ?_⟩)
          simp only [upd_same]
          split
          · exact .inr (.inl rfl)
          · exact .inr (.inr rfl)
      · intro hph
        rcases hlive hph with h | ⟨h, -⟩
        · exact .inl h
        · refine .inr ⟨h, p, ?_⟩
          simp only [] at hph ⊢
          rw [upd_same, if_pos hph]
          exact .inr (.inl rfl)
    · simp at h
  | ret p =>
    simp only [step] at h
    split at h
    · rename_i hc
      obtain rfl := Option.some.inj h
      have hin : ∀ q, inside { s with proxy := upd s.proxy p .leaving } q → inside s q := by
        rintro q (hq | hq)
        · rcases upd_eq hq with ⟨-, h⟩ | ⟨-, h⟩
          · simp at h
          · exact .inl h
        · rcases upd_eq hq with ⟨h, -⟩ | ⟨-, h⟩
          · exact .inl (by rw [h]; exact hc)
          · exact .inr h
      refine ⟨?_, ?_, hsucc, hbusy, halone, ?_, ?_⟩
      · intro a b h1 h2
        exact hone a b (hin a h1) (hin b h2)
      · intro q hq
        rcases upd_eq hq with ⟨-, h⟩ | ⟨-, h⟩
        · simp at h
        · exact hrun q h
      · intro t ht
        rcases hserved t ht with h | h | ⟨q, h⟩
        · exact .inl h
        · exact .inr (.inl h)
        · exact .inr (.inr ⟨p, .inr (.inr (upd_same _ _ _))⟩)
      · intro hph
        rcases hlive hph with h | ⟨h, -⟩
        · exact .inl h
        · exact .inr ⟨h, p, .inr (.inr (upd_same _ _ _))⟩
    · simp at h
  | leave p =>
    simp only [step] at h
    split at h
    · rename_i hc
      obtain rfl := Option.some.inj h
      have hin : ∀ q, upd s.proxy p .done q = .running ∨ upd s.proxy p .done q = .leaving → False := by
        intro q hq
        rcases hq with hq | hq
        · rcases upd_eq hq with ⟨-, h⟩ | ⟨h1, h⟩
          · simp at h
          · exact h1 (hone q p (.inl h) (.inr hc))
        · rcases upd_eq hq with ⟨-, h⟩ | ⟨h1, h⟩
          · simp at h
          · exact h1 (hone q p (.inr h) (.inr hc))
      have hidle : s.phase ≠ .arm → (if s.periodic then (if s.phase = .disarm then Phase.idle else s.phase)
                 else (if s.phase ≠ .idle then .idle else s.phase)) = .idle := by
        intro h
        cases hp : s.phase <;> cases s.periodic <;> simp_all
      refine ⟨?_, ?_, ?_, ?_, ?_, ?_, ?_⟩
      · intro a b h1
        exact (hin a h1).elim
      · intro q hq
        exact (hin q (.inl hq)).elim
      · intro t ht
        exact hidle (hbusy t (by simp only [] at ht; rw [ht]; simp))
      · intro t ht
        simp only []
        rw [hidle (hbusy t ht)]
        simp
      · intro t u ht _ _
        exact hidle (hbusy t (by simp only [] at ht; rw [ht]; simp))
      · intro t ht
        left
        exact hidle (hbusy t (by simp only [] at ht; rw [ht]; simp))
      · intro hph
        simp only [] at hph ⊢
        cases hp : s.periodic with
        | true =>
          rw [hp, if_pos rfl] at hph
          have harm : s.phase = .arm := by
            split at hph
            · simp at hph
            · exact hph
          rcases hlive harm with h | ⟨h, -⟩
          · exact .inl h
          · rw [hp] at h; simp at h
        | false =>
          rw [hp] at hph
          simp only [Bool.false_eq_true, if_false] at hph
          split at hph
          · simp at hph
          · rename_i hni; rw [hph] at hni; simp at hni
    · simp at h
  | stop t =>
    simp only [step] at h
    split at h
    · rename_i hc
      simp only [Apart] at ha
      split at h
      · rename_i hph
        obtain rfl := Option.some.inj h
        have hall : ∀ u, s.app u = .idle := by
          intro u
          apply Classical.byContradiction
          intro hu
          exact hbusy u hu hph
        refine ⟨hone, ?_, ?_, ?_, ?_, ?_, by simp⟩
        · intro p _; simp
        · intro u hu
          rcases upd_eq hu with ⟨-, h⟩ | ⟨-, h⟩
          · simp at h
          · rw [hall u] at h; simp at h
        · intro u _; simp
        · intro u v hu huv hv
          simp only [] at hu hv
          rcases upd_eq hu with ⟨h, -⟩ | ⟨-, h⟩
          · subst h
            rw [upd_ne _ _ huv] at hv
            exact absurd (hall v) hv
          · rw [hall u] at h; simp at h
        · intro u hu
          simp only []
          rcases hlive hph with h | ⟨-, h⟩
          · exact .inr (.inl h)
          · exact .inr (.inr h)
      · rename_i hph
        obtain rfl := Option.some.inj h
        have hidle : s.phase = .idle := by cases hp : s.phase <;> simp_all
        refine ⟨hone, hrun, ?_, ?_, ?_, ?_, fun h => absurd h hph⟩
        · intro u _; exact hidle
        · intro u _; exact hph
        · intro u v _ _ _; exact hidle
        · intro u _; exact .inl hidle
    · simp at h
  | wake t =>
    simp only [step] at h
    split at h
    · rename_i hc
      obtain rfl := Option.some.inj h
      refine ⟨hone, hrun, ?_, ?_, ?_, ?_, hlive⟩
      · intro u _; exact hc.2
      · intro u _; simp only []; rw [hc.2]; simp
      · intro u v _ _ _; exact hc.2
      · intro u _; exact .inl hc.2
    · simp at h
  | timeout t =>
    simp only [step] at h
    split at h
    · rename_i hc
      obtain rfl := Option.some.inj h
      refine ⟨hone, hrun, ?_, ?_, ?_, ?_, hlive⟩
      · intro u hu
        rcases upd_eq hu with ⟨-, h⟩ | ⟨-, h⟩
        · simp at h
        · exact hsucc u h
      · intro u hu
        by_cases hut : u = t
        · subst hut; exact hbusy u (by rw [hc]; simp)
        · simp only [] at hu; rw [upd_ne _ _ hut] at hu; exact hbusy u hu
      · intro u v hu huv hv
        rcases upd_eq hu with ⟨-, hw⟩ | ⟨hut, hw⟩
        · simp at hw
        · by_cases hvt : v = t
          · subst hvt; exact halone u v hw huv (by rw [hc]; simp)
          · simp only [] at hv; rw [upd_ne _ _ hvt] at hv; exact halone u v hw huv hv
      · intro u hu
        rcases upd_eq hu with ⟨-, h⟩ | ⟨hut, h⟩
        · simp at h
        · exact hserved u h
    · simp at h
  | settime t =>
    simp only [step] at h
    split at h
    · rename_i ok hc
      obtain rfl := Option.some.inj h
      have hold : ∀ u, upd s.app t .idle u ≠ .idle → u ≠ t ∧ s.app u ≠ .idle := by
        intro u hu
        by_cases hut : u = t
        · subst hut; rw [upd_same] at hu; simp at hu
        · rw [upd_ne _ _ hut] at hu; exact ⟨hut, hu⟩
      refine ⟨hone, hrun, ?_, ?_, ?_, ?_, fun h => absurd h (hbusy t (by rw [hc]; simp))⟩
      · intro u hu
        rcases upd_eq hu with ⟨-, h⟩ | ⟨-, h⟩
        · simp at h
        · exact hsucc u h
      · intro u hu
        exact hbusy u (hold u hu).2
      · intro u v hu huv hv
        rcases upd_eq hu with ⟨-, h⟩ | ⟨hut, h⟩
        · simp at h
        · exact halone u v h huv (hold v hv).2
      · intro u hu
        rcases upd_eq hu with ⟨-, h⟩ | ⟨hut, h⟩
        · simp at h
        · left
          exact halone u t h (Ne.symm hut) (by rw [hc]; simp)
    · simp at h

theorem run_inv {periodic : Bool} {es : List Event} {s : State} (h : Run periodic es s) : Inv s := by
  induction h with
  | nil => exact inv_init periodic
  | snoc _ ha hs ih => exact step_inv ih _ ha hs

/-- Not armed, and the function is not being executed. -/
def Quiet (s : State) : Prop := s.phase ≠ .arm ∧ ∀ p, s.proxy p ≠ .running

theorem step_quiet {s s' : State} (hq : Quiet s) (e : Event) (he : ∀ t, e ≠ .start t) (h : step s e = some s') :
    Quiet s' := by
  obtain ⟨h1, h2⟩ := hq
  have keep : ∀ (p : Nat) (c : Proxy), c ≠ .running → ∀ q, upd s.proxy p c q ≠ .running := by
    intro p c hc q hq
    rcases upd_eq hq with ⟨-, h⟩ | ⟨-, h⟩
    · exact hc h
    · exact h2 q h
  cases e with
  | start t => exact absurd rfl (he t)
  | expire p =>
    simp only [step] at h
    split at h <;> simp only [Option.some.injEq, reduceCtorEq] at h
    subst h; exact ⟨h1, keep p _ (by simp)⟩
  | enter p =>
    simp only [step] at h
    split at h <;> simp only [Option.some.injEq, reduceCtorEq] at h
    subst h; exact ⟨h1, keep p _ (by simp)⟩
  | ret p =>
    simp only [step] at h
    split at h <;> simp only [Option.some.injEq, reduceCtorEq] at h
    subst h; exact ⟨h1, keep p _ (by simp)⟩
  | leave p =>
    simp only [step] at h
    split at h <;> simp only [Option.some.injEq, reduceCtorEq] at h
    subst h
    refine ⟨?_, keep p _ (by simp)⟩
    simp only []
    split
    · split
      · simp
      · exact h1
    · split
      · simp
      · exact h1
  | stop t =>
    simp only [step] at h
    split at h
    · simp only [Option.some.injEq] at h
      subst h
      exact ⟨h1, h2⟩
    · simp at h
  | wake t =>
    simp only [step] at h
    split at h <;> simp only [Option.some.injEq, reduceCtorEq] at h
    subst h; exact ⟨h1, h2⟩
  | timeout t =>
    simp only [step] at h
    split at h <;> simp only [Option.some.injEq, reduceCtorEq] at h
    subst h; exact ⟨h1, h2⟩
  | settime t =>
    simp only [step] at h
    split at h <;> simp only [Option.some.injEq, reduceCtorEq] at h
    subst h; exact ⟨h1, h2⟩

theorem run_quiet {s s' : State} (hq : Quiet s) (es : List Event) (he : ∀ e ∈ es, ∀ t, e ≠ .start t)
    (h : run s es = some s') : Quiet s' := by
  induction es generalizing s with
  | nil =>
    simp only [run, Option.some.injEq] at h
    subst h
    exact hq
  | cons e es ih =>
    simp only [run, Option.bind_eq_some_iff] at h
    obtain ⟨s1, h1, h2⟩ := h
    exact ih (step_quiet hq e (he e (by simp)) h1) (fun x hx => he x (by simp [hx])) h2

/-- The function of a one-shot timer is being executed, and a stop waits for it. -/
def Stuck (p t : Nat) (s : State) : Prop :=
  s.phase = .disarm ∧ s.armed = false ∧ s.proxy p = .running ∧ (∀ q, q ≠ p → s.proxy q = .none) ∧ s.app t ≠ .settime true

theorem step_stuck {p t : Nat} {s s' : State} (hq : Stuck p t s) (e : Event) (he : e ≠ .ret p)
    (he1 : ∀ u, e ≠ .start u) (he2 : e ≠ .stop t) (h : step s e = some s') : Stuck p t s' := by
  obtain ⟨h1, h2, h3, h4, h5⟩ := hq
  have only : ∀ q c, s.proxy q = c → c ≠ .none → c ≠ .running → False := by
    intro q c hc hn hr
    by_cases hqp : q = p
    · rw [hqp, h3] at hc; exact hr hc.symm
    · rw [h4 q hqp] at hc; exact hn hc.symm
  cases e with
  | start u => exact absurd rfl (he1 u)
  | expire q => simp [step, h2] at h
  | enter q =>
    simp only [step] at h
    split at h
    · rename_i hc; exact (only q _ hc (by simp) (by simp)).elim
    · simp at h
  | ret q =>
    simp only [step] at h
    split at h
    · rename_i hc
      by_cases hqp : q = p
      · exact absurd (by rw [hqp]) he
      · rw [h4 q hqp] at hc; simp at hc
    · simp at h
  | leave q =>
    simp only [step] at h
    split at h
    · rename_i hc; exact (only q _ hc (by simp) (by simp)).elim
    · simp at h
  | stop u =>
    simp only [step] at h
    split at h
    · rw [if_neg (by rw [h1]; simp)] at h
      simp only [Option.some.injEq] at h
      subst h
      refine ⟨h1, h2, h3, h4, ?_⟩
      simp only []
      rw [upd_ne _ _ (by rintro rfl; exact he2 rfl)]
      exact h5
    · simp at h
  | wake u =>
    simp only [step] at h
    rw [if_neg (by rw [h1]; simp)] at h
    simp at h
  | timeout u =>
    simp only [step] at h
    split at h
    · simp only [Option.some.injEq] at h
      subst h
      refine ⟨h1, h2, h3, h4, ?_⟩
      simp only []
      by_cases hut : t = u
      · subst hut; rw [upd_same]; simp
      · rw [upd_ne _ _ hut]; exact h5
    · simp at h
  | settime u =>
    simp only [step] at h
    split at h
    · simp only [Option.some.injEq] at h
      subst h
      refine ⟨h1, rfl, h3, h4, ?_⟩
      simp only []
      by_cases hut : t = u
      · subst hut; rw [upd_same]; simp
      · rw [upd_ne _ _ hut]; exact h5
    · simp at h

end Diminuto.Timer
