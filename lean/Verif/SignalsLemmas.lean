import Verif.SignalsSpec

/-!
# Lemmas: signal counters
-/

namespace Diminuto.Signals

structure Inv (s : State) : Prop where
  spec : ∃ n, count s.log = some n ∧ s.signaled.toNat = n ∧ n ≤ 2 ^ 31 - 1
  holder : ∀ t, s.pc t ≠ .idle ↔ s.mutex = some t
  mask : ∀ t, s.masked t = true ↔ (s.pc t = .blocked ∨ ∃ my, s.pc t = .got my ∨ s.pc t = .cleared my)
  unhandled : ∀ t, s.masked t = true → s.handler t = .none
  one : ∀ t u, s.handler t ≠ .none → s.handler u ≠ .none → t = u
  excl : ∀ t u, s.handler t ≠ .none → ¬ inCheck s u
  got : ∀ t my, s.pc t = .got my → my = s.signaled
  hgot : ∀ t my, s.handler t = .got my → my = s.signaled
  ret : reports s.log = match s.mutex with
    | none => s.returned
    | some t => match s.pc t with
      | .cleared my => my :: s.returned
      | .unblocked my => my :: s.returned
      | _ => s.returned

theorem upd_same {β : Type} (f : Nat → β) (i : Nat) (x : β) : upd f i x i = x := by simp [upd]

theorem upd_ne {β : Type} (f : Nat → β) {i j : Nat} (x : β) (h : j ≠ i) : upd f i x j = f j := by simp [upd, h]

theorem inv_start : Inv start := by
  refine ⟨⟨0, rfl, rfl, by decide⟩, ?_, ?_, ?_, ?_, ?_, ?_, ?_, ?_⟩ <;> simp [start, reports]

theorem toInt_small (x : Int32) (h : x.toNat ≤ 2 ^ 31 - 1) : x.toInt = x.toNat := by
  rw [BitVec.toInt_eq_toNat_cond]
  split
  · rfl
  · omega

theorem slt_max (x : Int32) (h : x.toNat ≤ 2 ^ 31 - 1) : x.slt MAXIMUM = true ↔ x.toNat < 2 ^ 31 - 1 := by
  rw [BitVec.slt, decide_eq_true_eq, toInt_small x h]
  have : MAXIMUM.toInt = 2 ^ 31 - 1 := by decide
  rw [this]
  omega

theorem step_inv {s s' : State} (hi : Inv s) (e : Event) (ha : Apart s e) (h : step s e = some s') : Inv s' := by
  obtain ⟨⟨n, hn1, hn2, hn3⟩, hold, hmask, hunh, hone, hexcl, hgot, hhgot, hret⟩ := hi
  -- steps of the check function that only move the program counter
  cases e with
  | deliver t =>
    simp only [step] at h
    split at h
    · rename_i hc
      obtain rfl := Option.some.inj h
      simp only [Apart] at ha
      refine ⟨⟨n, hn1, hn2, hn3⟩, hold, hmask, ?_, ?_, ?_, hgot, ?_, hret⟩
      · intro u hu
        simp only [] at hu ⊢
        have hut : u ≠ t := by
          rintro rfl
          rw [hc.2] at hu
          simp at hu
        rw [upd_ne _ _ hut]
        exact hunh u hu
      · have : ∀ u, upd s.handler t .entered u ≠ .none → u = t := by
          intro u hu
          apply Classical.byContradiction
          intro hut
          rw [upd_ne _ _ hut] at hu
          exact hu (ha u hut).1
        intro a b h1 h2
        rw [this a h1, this b h2]
      · intro a u _
        by_cases hut : u = t
        · subst hut
          intro hin
          have : s.masked u = true := by
            rw [hmask]
            rcases hin with h | ⟨my, h⟩
            · exact .inl h
            · exact .inr ⟨my, .inl h⟩
          rw [hc.2] at this
          simp at this
        · exact (ha u hut).2
      · intro u my hu
        simp only [] at hu ⊢
        by_cases hut : u = t
        · subst hut
          rw [upd_same] at hu
          simp at hu
        · rw [upd_ne _ _ hut] at hu
          exact hhgot u my hu
    · simp at h
  | handle t =>
    simp only [step, stepHandler] at h
    split at h
    · simp at h
    · rename_i ht
      obtain rfl := Option.some.inj h
      have hnm : s.masked t = false := by
        cases hm : s.masked t with
        | false => rfl
        | true =>
          have := hunh t hm
          rw [ht] at this
          simp at this
      have hth : s.handler t ≠ .none := by rw [ht]; simp
      have hsub : ∀ u, upd s.handler t (.got s.signaled) u ≠ .none → s.handler u ≠ .none := by
        intro u hu
        by_cases hut : u = t
        · subst hut
          exact hth
        · rwa [upd_ne _ _ hut] at hu
      refine ⟨⟨n, hn1, hn2, hn3⟩, hold, hmask, ?_, ?_, ?_, hgot, ?_, hret⟩
      · intro u hu
        simp only [] at hu ⊢
        have hut : u ≠ t := by
          rintro rfl
          rw [hnm] at hu
          simp at hu
        rw [upd_ne _ _ hut]
        exact hunh u hu
      · intro a b h1 h2
        exact hone a b (hsub a h1) (hsub b h2)
      · intro a u h1
        exact hexcl t u hth
      · intro u my hu
        simp only [] at hu ⊢
        by_cases hut : u = t
        · subst hut
          rw [upd_same] at hu
          exact (Handler.got.inj hu).symm
        · rw [upd_ne _ _ hut] at hu
          exact hhgot u my hu
    · rename_i my ht
      have hth : s.handler t ≠ .none := by rw [ht]; simp
      have hall : ∀ u, upd s.handler t .none u = .none := by
        intro u
        by_cases hut : u = t
        · rw [hut, upd_same]
        · rw [upd_ne _ _ hut]
          apply Classical.byContradiction
          intro hne
          exact hut (hone u t hne hth)
      have hmy := hhgot t my ht
      subst hmy
      have hno : ∀ u my, s.pc u ≠ .got my := fun u my hu => hexcl t u hth (.inr ⟨my, hu⟩)
      have fin : ∀ v : Int32, v.toNat = min (n + 1) (2 ^ 31 - 1) →
          Inv { s with signaled := v, handler := upd s.handler t .none, log := .signal :: s.log } := by
        intro v hv
        refine ⟨⟨min (n + 1) (2 ^ 31 - 1), by simp [count, hn1], hv, by omega⟩, hold, hmask, ?_, ?_, ?_, ?_, ?_, ?_⟩
        · intro u _
          exact hall u
        · intro a b h1
          exact absurd (hall a) h1
        · intro a u h1
          exact absurd (hall a) h1
        · intro u my hu
          exact absurd hu (hno u my)
        · intro u my hu
          simp only [hall u] at hu
          simp at hu
        · exact hret
      split at h
      · rename_i hlt
        obtain rfl := Option.some.inj h
        rw [slt_max _ (by omega)] at hlt
        apply fin
        rw [BitVec.toNat_add, hn2]
        have e : (1#32).toNat = 1 := rfl
        rw [e, Nat.mod_eq_of_lt (by omega)]
        omega
      · rename_i hlt
        obtain rfl := Option.some.inj h
        rw [slt_max _ (by omega)] at hlt
        exact fin _ (by omega)
  | check t =>
    simp only [step] at h
    split at h
    rotate_left
    · simp at h
    rename_i hht
    simp only [stepCheck] at h
    split at h
    · rename_i hpc
      split at h
      · rename_i hm
        obtain rfl := Option.some.inj h
        have hidle : ∀ u, s.pc u = .idle := by
          intro u
          apply Classical.byContradiction
          intro hu
          replace hu := (hold u).1 hu
          rw [hm] at hu
          simp at hu
        have hin : ∀ u c, upd s.pc t Pc.locked u = c → (c = .idle ∨ c = .locked) := by
          intro u c hu
          by_cases hut : u = t
          · subst hut; rw [upd_same] at hu; exact .inr hu.symm
          · rw [upd_ne _ _ hut, hidle] at hu; exact .inl hu.symm
        refine ⟨⟨n, hn1, hn2, hn3⟩, ?_, ?_, hunh, hone, ?_, ?_, hhgot, ?_⟩
        · intro u
          simp only [Option.some.injEq]
          by_cases hut : u = t
          · subst hut; rw [upd_same]; simp
          · rw [upd_ne _ _ hut, hidle]; simp [Ne.symm hut]
        · intro u
          have : s.masked u = false := by
            cases hmu : s.masked u with
            | false => rfl
            | true =>
              have := (hmask u).1 hmu
              rw [hidle u] at this
              simp at this
          simp only [this]
          constructor
          · simp
          · rintro (h | ⟨my, h | h⟩) <;> rcases hin u _ h with h | h <;> simp at h
        · intro a u h1
          rintro (h | ⟨my, h⟩) <;> rcases hin u _ h with h | h <;> simp at h
        · intro u my h
          rcases hin u _ h with h | h <;> simp at h
        · simp only [upd_same]
          rw [hret, hm]
      · simp at h
    · rename_i hpc
      obtain rfl := Option.some.inj h
      have hm : s.mutex = some t := (hold t).1 (by rw [hpc]; simp)
      have hother : ∀ u, u ≠ t → s.pc u = .idle := by
        intro u hut
        apply Classical.byContradiction
        intro hu
        replace hu := (hold u).1 hu
        rw [hm] at hu
        exact hut (Option.some.inj hu).symm
      simp only [Apart] at ha
      have hh : ∀ u, s.handler u = .none := by
        intro u
        by_cases hut : u = t
        · rw [hut]; exact hht
        · exact ha hpc u hut
      refine ⟨⟨n, hn1, hn2, hn3⟩, ?_, ?_, ?_, hone, ?_, ?_, hhgot, ?_⟩
      · intro u
        simp only [hm]
        by_cases hut : u = t
        · subst hut; rw [upd_same]; simp
        · rw [upd_ne _ _ hut, hother u hut]; simp [Ne.symm hut]
      · intro u
        simp only []
        by_cases hut : u = t
        · subst hut; rw [upd_same, upd_same]; simp
        · rw [upd_ne _ _ hut, upd_ne _ _ hut]; exact hmask u
      · intro u _
        exact hh u
      · intro a u h1
        exact absurd (hh a) h1
      · intro u my hu
        simp only [] at hu
        by_cases hut : u = t
        · subst hut; rw [upd_same] at hu; simp at hu
        · rw [upd_ne _ _ hut, hother u hut] at hu; simp at hu
      · simp only [hm, upd_same]
        rw [hret, hm]
        simp only [hpc]
    · rename_i hpc
      obtain rfl := Option.some.inj h
      have hm : s.mutex = some t := (hold t).1 (by rw [hpc]; simp)
      have hother : ∀ u, u ≠ t → s.pc u = .idle := by
        intro u hut
        apply Classical.byContradiction
        intro hu
        replace hu := (hold u).1 hu
        rw [hm] at hu
        exact hut (Option.some.inj hu).symm
      have hh : ∀ u, s.handler u = .none := by
        intro u
        apply Classical.byContradiction
        intro hu
        exact hexcl u t hu (.inl hpc)
      refine ⟨⟨n, hn1, hn2, hn3⟩, ?_, ?_, hunh, hone, ?_, ?_, hhgot, ?_⟩
      · intro u
        simp only [hm]
        by_cases hut : u = t
        · subst hut; rw [upd_same]; simp
        · rw [upd_ne _ _ hut, hother u hut]; simp [Ne.symm hut]
      · intro u
        simp only []
        by_cases hut : u = t
        · subst hut; rw [upd_same]
          constructor
          · intro _
            exact .inr ⟨_, .inl rfl⟩
          · intro _
            rw [hmask]
            exact .inl hpc
        · rw [upd_ne _ _ hut]; exact hmask u
      · intro a u h1
        exact absurd (hh a) h1
      · intro u my hu
        simp only [] at hu ⊢
        by_cases hut : u = t
        · subst hut; rw [upd_same] at hu; exact (Pc.got.inj hu).symm
        · rw [upd_ne _ _ hut, hother u hut] at hu; simp at hu
      · simp only [hm, upd_same]
        rw [hret, hm]
        simp only [hpc]
    · rename_i my hpc
      obtain rfl := Option.some.inj h
      have hm : s.mutex = some t := (hold t).1 (by rw [hpc]; simp)
      have hother : ∀ u, u ≠ t → s.pc u = .idle := by
        intro u hut
        apply Classical.byContradiction
        intro hu
        replace hu := (hold u).1 hu
        rw [hm] at hu
        exact hut (Option.some.inj hu).symm
      have hh : ∀ u, s.handler u = .none := by
        intro u
        apply Classical.byContradiction
        intro hu
        exact hexcl u t hu (.inr ⟨my, hpc⟩)
      have hmy := hgot t my hpc
      refine ⟨⟨0, ?_, rfl, by decide⟩, ?_, ?_, hunh, hone, ?_, ?_, ?_, ?_⟩
      · simp only [count, hn1, Option.bind_some]
        rw [if_pos]
        rw [hmy, toInt_small _ (by omega), hn2]
      · intro u
        simp only [hm]
        by_cases hut : u = t
        · subst hut; rw [upd_same]; simp
        · rw [upd_ne _ _ hut, hother u hut]; simp [Ne.symm hut]
      · intro u
        simp only []
        by_cases hut : u = t
        · subst hut; rw [upd_same]
          constructor
          · intro _
            exact .inr ⟨_, .inr rfl⟩
          · intro _
            rw [hmask]
            exact .inr ⟨my, .inl hpc⟩
        · rw [upd_ne _ _ hut]; exact hmask u
      · intro a u h1
        exact absurd (hh a) h1
      · intro u my hu
        simp only [] at hu ⊢
        by_cases hut : u = t
        · subst hut; rw [upd_same] at hu; simp at hu
        · rw [upd_ne _ _ hut, hother u hut] at hu; simp at hu
      · intro u my hu
        simp only [hh u] at hu
        simp at hu
      · simp only [hm, upd_same, reports]
        rw [hret, hm]
        simp only [hpc]
    · rename_i my hpc
      obtain rfl := Option.some.inj h
      have hm : s.mutex = some t := (hold t).1 (by rw [hpc]; simp)
      have hother : ∀ u, u ≠ t → s.pc u = .idle := by
        intro u hut
        apply Classical.byContradiction
        intro hu
        replace hu := (hold u).1 hu
        rw [hm] at hu
        exact hut (Option.some.inj hu).symm
      refine ⟨⟨n, hn1, hn2, hn3⟩, ?_, ?_, ?_, hone, ?_, ?_, hhgot, ?_⟩
      · intro u
        simp only [hm]
        by_cases hut : u = t
        · subst hut; rw [upd_same]; simp
        · rw [upd_ne _ _ hut, hother u hut]; simp [Ne.symm hut]
      · intro u
        simp only []
        by_cases hut : u = t
        · subst hut; rw [upd_same, upd_same]; simp
        · rw [upd_ne _ _ hut, upd_ne _ _ hut]; exact hmask u
      · intro u hu
        simp only [] at hu
        by_cases hut : u = t
        · subst hut; rw [upd_same] at hu; simp at hu
        · rw [upd_ne _ _ hut] at hu; exact hunh u hu
      · intro a u h1 h2
        simp only [inCheck] at h2
        by_cases hut : u = t
        · subst hut; rw [upd_same] at h2; simp at h2
        · rw [upd_ne _ _ hut, hother u hut] at h2; simp at h2
      · intro u my hu
        simp only [] at hu ⊢
        by_cases hut : u = t
        · subst hut; rw [upd_same] at hu; simp at hu
        · rw [upd_ne _ _ hut, hother u hut] at hu; simp at hu
      · simp only [hm, upd_same]
        rw [hret, hm]
        simp only [hpc]
    · rename_i my hpc
      obtain rfl := Option.some.inj h
      have hm : s.mutex = some t := (hold t).1 (by rw [hpc]; simp)
      have hidle : ∀ u, upd s.pc t .idle u = .idle := by
        intro u
        by_cases hut : u = t
        · subst hut; rw [upd_same]
        · rw [upd_ne _ _ hut]
          apply Classical.byContradiction
          intro hu
          replace hu := (hold u).1 hu
          rw [hm] at hu
          exact hut (Option.some.inj hu).symm
      refine ⟨⟨n, hn1, hn2, hn3⟩, ?_, ?_, hunh, hone, ?_, ?_, hhgot, ?_⟩
      · intro u
        simp only [hidle u]
        simp
      · intro u
        simp only [hidle u]
        by_cases hut : u = t
        · subst hut
          rw [hmask, hpc]
          simp
        · have := hidle u
          rw [upd_ne _ _ hut] at this
          rw [hmask, this]
      · intro a u h1 h2
        simp only [inCheck, hidle u] at h2
        simp at h2
      · intro u my hu
        simp only [hidle u] at hu
        simp at hu
      · rw [hret, hm]
        simp only [hpc]
  | install t =>
    simp only [step] at h
    split at h
    · obtain rfl := Option.some.inj h
      simp only [Apart] at ha
      refine ⟨⟨0, by simp [count, hn1], rfl, by decide⟩, hold, hmask, hunh, hone, hexcl, ?_, ?_, hret⟩
      · intro u my hu
        exact absurd (.inr ⟨my, hu⟩) (ha u).2
      · intro u my hu
        have := (ha u).1
        simp only [] at hu
        rw [this] at hu
        simp at hu
    · simp at h

theorem run_inv {es : List Event} {s : State} (h : Run es s) : Inv s := by
  induction h with
  | nil => exact inv_start
  | snoc _ ha hs ih => exact step_inv ih _ ha hs

theorem count_total (l : List Act) (n : Nat) (h : count l = some n) (hr : Act.reset ∉ l) (hs : signals l ≤ 2 ^ 31 - 1) :
    total (reports l) + n = signals l ∧ n ≤ signals l := by
  induction l generalizing n with
  | nil =>
    simp only [count, Option.some.injEq] at h
    subst h
    simp [reports, total, signals]
  | cons a l ih =>
    have hr' : Act.reset ∉ l := fun h => hr (by simp [h])
    cases a with
    | signal =>
      simp only [count, Option.bind_eq_some_iff, Option.some.injEq] at h
      obtain ⟨m, h1, h2⟩ := h
      simp only [signals] at hs
      obtain ⟨h3, h4⟩ := ih m h1 hr' (by omega)
      simp only [reports, signals]
      omega
    | check my =>
      simp only [count, Option.bind_eq_some_iff] at h
      obtain ⟨m, h1, h2⟩ := h
      split at h2 <;> simp only [Option.some.injEq, reduceCtorEq] at h2
      simp only [signals] at hs
      obtain ⟨h3, h4⟩ := ih m h1 hr' (by omega)
      simp only [reports, signals, total]
      omega
    | reset => simp at hr

/-- A thread that does nothing. -/
def Silent (s : State) (t : Nat) : Prop := s.handler t = .none ∧ s.pc t = .idle

theorem step_silent {s s' : State} {e : Event} (h : step s e = some s') (u : Nat) (hu : e.thread ≠ u) (hs : Silent s u) :
    Silent s' u := by
  cases e with
  | deliver t =>
    have hut : u ≠ t := fun h => hu h.symm
    simp only [step] at h
    split at h <;> simp only [Option.some.injEq, reduceCtorEq] at h
    subst h
    exact ⟨by simp only []; rw [upd_ne _ _ hut]; exact hs.1, hs.2⟩
  | handle t =>
    have hut : u ≠ t := fun h => hu h.symm
    simp only [step, stepHandler] at h
    split at h
    · simp at h
    · simp only [Option.some.injEq] at h
      subst h
      exact ⟨by simp only []; rw [upd_ne _ _ hut]; exact hs.1, hs.2⟩
    · split at h <;> simp only [Option.some.injEq] at h <;> subst h <;>
        exact ⟨by simp only []; rw [upd_ne _ _ hut]; exact hs.1, hs.2⟩
  | check t =>
    have hut : u ≠ t := fun h => hu h.symm
    simp only [step] at h
    split at h
    · simp only [stepCheck] at h
      split at h
      · split at h <;> simp only [Option.some.injEq, reduceCtorEq] at h
        subst h
        exact ⟨hs.1, by simp only []; rw [upd_ne _ _ hut]; exact hs.2⟩
      all_goals
        simp only [Option.some.injEq] at h
        subst h
        exact ⟨hs.1, by simp only []; rw [upd_ne _ _ hut]; exact hs.2⟩
    · simp at h
  | install t =>
    simp only [step] at h
    split at h <;> simp only [Option.some.injEq, reduceCtorEq] at h
    subst h
    exact hs

end Diminuto.Signals
