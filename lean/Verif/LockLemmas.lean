import Verif.LockSpec

/-!
# Lemmas: the Lock
-/

namespace Diminuto.Lock

/-- What holds in all such executions. -/
structure Inv (text : Nat → List Byte) (s : State) : Prop where
  inj : ∀ m n i, s.dir m = some i → s.dir n = some i → m = n
  old : ∀ m i, s.dir m = some i → i < s.next
  opened : ∀ p k t i rest, s.pc p = .opened k t i rest → s.dir (.temp t) = some i ∧ s.data i ++ rest = text p
  closed : ∀ p k t, s.pc p = .closed k t → ∃ i, s.dir (.temp t) = some i ∧ s.data i = text p
  apart : ∀ p q t, (s.pc p).name = some t → (s.pc q).name = some t → p = q
  temps : ∀ t i, s.dir (.temp t) = some i → (∃ p, (s.pc p).name = some t) ∨ ∃ p, s.pc p = .dead (some t)
  spec : history text s.log = some (contents s)

theorem upd_same {α β : Type} [DecidableEq α] (f : α → β) (i : α) (x : β) : upd f i x i = x := by simp [upd]

theorem upd_ne {α β : Type} [DecidableEq α] (f : α → β) {i j : α} (x : β) (h : j ≠ i) : upd f i x j = f j := by
  simp [upd, h]

theorem inv_start (text : Nat → List Byte) : Inv text start := by
  refine ⟨?_, ?_, ?_, ?_, ?_, ?_, ?_⟩ <;> simp [start, Pc.name, history, contents]

/-- A process whose name stays or is given up, with the file system unchanged. -/
theorem inv_go {text : Nat → List Byte} {s : State} (hi : Inv text s) (p : Nat) (c : Pc)
    (hn : c.name = (s.pc p).name ∨ (c.name = none ∧ ∀ t, (s.pc p).name = some t →
      s.dir (.temp t) = none ∨ c = .dead (some t)))
    (ho : ∀ k t i rest, c = .opened k t i rest → s.dir (.temp t) = some i ∧ s.data i ++ rest = text p)
    (hc : ∀ k t, c = .closed k t → ∃ i, s.dir (.temp t) = some i ∧ s.data i = text p)
    (hd : ∀ t, s.pc p ≠ .dead (some t)) : Inv text (go s p c) := by
  refine ⟨hi.inj, hi.old, ?_, ?_, ?_, ?_, hi.spec⟩
  · intro q k t i rest hq
    simp only [go] at hq ⊢
    by_cases hqp : q = p
    · subst hqp
      rw [upd_same] at hq
      exact ho k t i rest hq
    · rw [upd_ne _ _ hqp] at hq
      exact hi.opened q k t i rest hq
  · intro q k t hq
    simp only [go] at hq ⊢
    by_cases hqp : q = p
    · subst hqp
      rw [upd_same] at hq
      exact hc k t hq
    · rw [upd_ne _ _ hqp] at hq
      exact hi.closed q k t hq
  · have hsub : ∀ q t, ((go s p c).pc q).name = some t → (s.pc q).name = some t := by
      intro q t hq
      simp only [go] at hq
      by_cases hqp : q = p
      · subst hqp
        rw [upd_same] at hq
        rcases hn with hn | ⟨hn, -⟩
        · rw [← hn]; exact hq
        · rw [hn] at hq; simp at hq
      · rwa [upd_ne _ _ hqp] at hq
    intro a b t ha hb
    exact hi.apart a b t (hsub a t ha) (hsub b t hb)
  · intro t i ht
    rcases hi.temps t i ht with ⟨q, hq⟩ | ⟨q, hq⟩
    · by_cases hqp : q = p
      · subst hqp
        rcases hn with hn | ⟨hn, hn2⟩
        · left
          exact ⟨q, by simp only [go]; rw [upd_same, hn]; exact hq⟩
        · rcases hn2 t hq with h | h
          · rw [show (go s q c).dir = s.dir from rfl] at ht
            rw [h] at ht
            simp at ht
          · right
            exact ⟨q, by simp only [go]; rw [upd_same]; exact h⟩
      · left
        exact ⟨q, by simp only [go]; rw [upd_ne _ _ hqp]; exact hq⟩
    · right
      refine ⟨q, ?_⟩
      simp only [go]
      rw [upd_ne _ _ (by rintro rfl; exact hd t hq)]
      exact hq

theorem inv_note {text : Nat → List Byte} {s : State} (hi : Inv text s) (a : Act)
    (h : a.spec text (contents s) = some (contents s)) : Inv text (note s a) :=
  ⟨hi.inj, hi.old, hi.opened, hi.closed, hi.apart, hi.temps, by
    simp only [note, history]
    rw [hi.spec, Option.bind_some]
    exact h⟩

theorem step_inv {text : Nat → List Byte} {s s' : State} (hi : Inv text s) (e : Event) (hf : Fresh s e)
    (h : step text s e = some s') : Inv text s' := by
  cases e with
  | call p k =>
    simp only [step] at h
    split at h
    · rename_i hp
      obtain rfl := Option.some.inj h
      exact inv_go hi p _ (.inl (by rw [hp]; rfl)) (by simp) (by simp) (by simp [hp])
    · simp at h
  | mkstemp p t =>
    simp only [step] at h
    split at h
    · rename_i k hp
      split at h
      · rename_i ht
        obtain rfl := Option.some.inj h
        have hnew : ∀ m, s.dir m ≠ some s.next := fun m hm => Nat.lt_irrefl _ (hi.old m _ hm)
        have hpn : ∀ q, (s.pc q).name ≠ some t := hf
        refine ⟨?_, ?_, ?_, ?_, ?_, ?_, ?_⟩
        · intro m n i hm hn
          simp only [go, create] at hm hn
          by_cases h1 : m = .temp t <;> by_cases h2 : n = .temp t
          · rw [h1, h2]
          · subst h1
            rw [upd_same] at hm
            rw [upd_ne _ _ h2] at hn
            rw [← Option.some.inj hm] at hn
            exact absurd hn (hnew n)
          · subst h2
            rw [upd_same] at hn
            rw [upd_ne _ _ h1] at hm
            rw [← Option.some.inj hn] at hm
            exact absurd hm (hnew m)
          · rw [upd_ne _ _ h1] at hm
            rw [upd_ne _ _ h2] at hn
            exact hi.inj m n i hm hn
        · intro m i hm
          simp only [go, create] at hm ⊢
          by_cases h1 : m = .temp t
          · subst h1
            rw [upd_same] at hm
            obtain rfl := Option.some.inj hm
            omega
          · rw [upd_ne _ _ h1] at hm
            have := hi.old m i hm
            omega
        · intro q k' t' i rest hq
          simp only [go, create] at hq ⊢
          by_cases hqp : q = p
          · subst hqp
            rw [upd_same] at hq
            obtain ⟨rfl, rfl, rfl, rfl⟩ := Pc.opened.inj hq
            rw [upd_same, upd_same]
            simp
          · rw [upd_ne _ _ hqp] at hq
            obtain ⟨h1, h2⟩ := hi.opened q k' t' i rest hq
            have hne : t' ≠ t := by
              rintro rfl
              exact hpn q (by rw [hq]; rfl)
            rw [upd_ne _ _ (by simpa using hne), upd_ne _ _ (by rintro rfl; exact hnew _ h1)]
            exact ⟨h1, h2⟩
        · intro q k' t' hq
          simp only [go, create] at hq ⊢
          by_cases hqp : q = p
          · subst hqp
            rw [upd_same] at hq
            simp at hq
          · rw [upd_ne _ _ hqp] at hq
            obtain ⟨i, h1, h2⟩ := hi.closed q k' t' hq
            have hne : t' ≠ t := by
              rintro rfl
              exact hpn q (by rw [hq]; rfl)
            refine ⟨i, ?_⟩
            rw [upd_ne _ _ (by simpa using hne), upd_ne _ _ (by rintro rfl; exact hnew _ h1)]
            exact ⟨h1, h2⟩
        · intro a b t' ha hb
          simp only [go, create] at ha hb
          by_cases h1 : a = p <;> by_cases h2 : b = p
          · rw [h1, h2]
          · subst h1
            rw [upd_same] at ha
            rw [upd_ne _ _ h2] at hb
            obtain rfl := Option.some.inj ha
            exact absurd hb (hpn b)
          · subst h2
            rw [upd_same] at hb
            rw [upd_ne _ _ h1] at ha
            obtain rfl := Option.some.inj hb
            exact absurd ha (hpn a)
          · rw [upd_ne _ _ h1] at ha
            rw [upd_ne _ _ h2] at hb
            exact hi.apart a b t' ha hb
        · intro t' i ht'
          simp only [go, create] at ht' ⊢
          by_cases hne : t' = t
          · subst hne
            left
            exact ⟨p, by rw [upd_same]; rfl⟩
          · rw [upd_ne _ _ (by simpa using hne)] at ht'
            rcases hi.temps t' i ht' with ⟨q, hq⟩ | ⟨q, hq⟩
            · left
              exact ⟨q, by rw [upd_ne _ _ (by rintro rfl; rw [hp] at hq; simp [Pc.name] at hq)]; exact hq⟩
            · right
              exact ⟨q, by rw [upd_ne _ _ (by rintro rfl; rw [hp] at hq; simp at hq)]; exact hq⟩
        · simp only [go, create]
          rw [hi.spec]
          congr 1
          simp only [contents]
          rw [upd_ne _ _ (by simp)]
          cases hl : s.dir .lock with
          | none => rfl
          | some j =>
            simp only [Option.map_some]
            rw [upd_ne _ _ (by rintro rfl; exact hnew _ hl)]
      · simp at h
    · simp at h
  | mkstempFail p =>
    simp only [step] at h
    split at h
    · rename_i k hp
      obtain rfl := Option.some.inj h
      apply inv_note _ _ rfl
      exact inv_go hi p _ (.inl (by rw [hp]; rfl)) (by simp) (by simp) (by simp [hp])
    · simp at h
  | write p n =>
    simp only [step] at h
    split at h
    · rename_i k t i rest hp
      obtain rfl := Option.some.inj h
      obtain ⟨h1, h2⟩ := hi.opened p k t i rest hp
      have hname : ∀ q, q ≠ p → (s.pc q).name ≠ some t := fun q hq hn =>
        hq (hi.apart q p t hn (by rw [hp]; rfl))
      have hnm : ∀ q, ((go { s with data := upd s.data i (s.data i ++ rest.take n) } p
          (.opened k t i (rest.drop n))).pc q).name = (s.pc q).name := by
        intro q
        simp only [go]
        by_cases hqp : q = p
        · subst hqp
          rw [upd_same, hp]
          rfl
        · rw [upd_ne _ _ hqp]
      refine ⟨hi.inj, hi.old, ?_, ?_, ?_, ?_, ?_⟩
      · intro q k' t' i' rest' hq
        simp only [go] at hq ⊢
        by_cases hqp : q = p
        · subst hqp
          rw [upd_same] at hq
          obtain ⟨rfl, rfl, rfl, rfl⟩ := Pc.opened.inj hq
          rw [upd_same]
          refine ⟨h1, ?_⟩
          rw [List.append_assoc, List.take_append_drop]
          exact h2
        · rw [upd_ne _ _ hqp] at hq
          obtain ⟨h3, h4⟩ := hi.opened q k' t' i' rest' hq
          have hne : i' ≠ i := by
            rintro rfl
            have := hi.inj _ _ _ h3 h1
            obtain rfl := Name.temp.inj this
            exact hname q hqp (by rw [hq]; rfl)
          rw [upd_ne _ _ hne]
          exact ⟨h3, h4⟩
      · intro q k' t' hq
        simp only [go] at hq ⊢
        by_cases hqp : q = p
        · subst hqp
          rw [upd_same] at hq
          simp at hq
        · rw [upd_ne _ _ hqp] at hq
          obtain ⟨i', h3, h4⟩ := hi.closed q k' t' hq
          have hne : i' ≠ i := by
            rintro rfl
            have := hi.inj _ _ _ h3 h1
            obtain rfl := Name.temp.inj this
            exact hname q hqp (by rw [hq]; rfl)
          refine ⟨i', h3, ?_⟩
          rw [upd_ne _ _ hne]
          exact h4
      · intro a b t' ha hb
        rw [hnm] at ha hb
        exact hi.apart a b t' ha hb
      · intro t' i' ht'
        rcases hi.temps t' i' ht' with ⟨q, hq⟩ | ⟨q, hq⟩
        · exact .inl ⟨q, by rw [hnm]; exact hq⟩
        · right
          exact ⟨q, by simp only [go]; rw [upd_ne _ _ (by rintro rfl; rw [hp] at hq; simp at hq)]; exact hq⟩
      · simp only [go]
        rw [hi.spec]
        congr 1
        simp only [contents]
        cases hl : s.dir .lock with
        | none => rfl
        | some j =>
          simp only [Option.map_some]
          rw [upd_ne _ _ (by rintro rfl; have := hi.inj _ _ _ hl h1; simp at this)]
    · simp at h
  | fclose p =>
    simp only [step] at h
    split at h
    · rename_i k t i hp
      obtain rfl := Option.some.inj h
      refine inv_go hi p _ (.inl (by rw [hp]; rfl)) (by simp) ?_ (by simp [hp])
      intro k' t' hc
      obtain ⟨rfl, rfl⟩ := Pc.closed.inj hc
      obtain ⟨h1, h2⟩ := hi.opened p k t i [] hp
      exact ⟨i, h1, by simpa using h2⟩
    · simp at h
  | openFail p =>
    simp only [step] at h
    split at h
    · rename_i k t i rest hp
      obtain rfl := Option.some.inj h
      apply inv_note _ _ rfl
      exact inv_go hi p _ (.inl (by rw [hp]; rfl)) (by simp) (by simp) (by simp [hp])
    · simp at h
  | fcloseFail p =>
    simp only [step] at h
    split at h
    · rename_i k t i rest hp
      obtain rfl := Option.some.inj h
      exact inv_go hi p _ (.inl (by rw [hp]; rfl)) (by simp) (by simp) (by simp [hp])
    · simp at h
  | rename p =>
    simp only [step] at h
    -- the file of a process that has closed it becomes the lock file
    have moved : ∀ (k : Kind) (t i : Nat) (o : Option Nat) (a : Act), s.pc p = .closed k t →
        s.dir (.temp t) = some i → (o = s.dir .lock ∨ o = none) → a.spec text (contents s) = some (some (text p)) →
        Inv text (note (go { s with dir := upd (upd s.dir (.temp t) o) .lock (some i) } p (.cleanup (some t) true)) a) := by
      intro k t i o a hp hti ho ha
      obtain ⟨i', h1, h2⟩ := hi.closed p k t hp
      rw [hti] at h1
      obtain rfl := Option.some.inj h1
      have hname : ∀ q, q ≠ p → (s.pc q).name ≠ some t := fun q hq hn =>
        hq (hi.apart q p t hn (by rw [hp]; rfl))
      have hnm : ∀ q, ((note (go { s with dir := upd (upd s.dir (.temp t) o) .lock (some i) } p
          (.cleanup (some t) true)) a).pc q).name = (s.pc q).name := by
        intro q
        simp only [go, note]
        by_cases hqp : q = p
        · subst hqp
          rw [upd_same, hp]
          rfl
        · rw [upd_ne _ _ hqp]
      -- names: the two are swapped, or one is removed
      have hdir : ∀ m j, upd (upd s.dir (.temp t) o) .lock (some i) m = some j →
          s.dir (if m = .lock then .temp t else if m = .temp t then .lock else m) = some j := by
        intro m j hm
        by_cases h1 : m = .lock
        · rw [h1, upd_same] at hm
          rw [if_pos h1, hti, hm]
        · rw [upd_ne _ _ h1] at hm
          rw [if_neg h1]
          by_cases h2 : m = .temp t
          · rw [h2, upd_same] at hm
            rw [if_pos h2]
            rcases ho with ho | ho
            · rw [← ho, hm]
            · rw [ho] at hm
              simp at hm
          · rw [upd_ne _ _ h2] at hm
            rw [if_neg h2, hm]
      have hother : ∀ t', t' ≠ t → upd (upd s.dir (.temp t) o) .lock (some i) (.temp t') = s.dir (.temp t') := by
        intro t' hne
        rw [upd_ne _ _ (by simp), upd_ne _ _ (by simpa using hne)]
      refine ⟨?_, ?_, ?_, ?_, ?_, ?_, ?_⟩
      · intro m n j hm hn
        simp only [go, note] at hm hn
        have := hi.inj _ _ _ (hdir _ _ hm) (hdir _ _ hn)
        by_cases h1 : m = .lock <;> by_cases h2 : n = .lock <;> by_cases h3 : m = .temp t <;> by_cases h4 : n = .temp t <;>
          simp_all
      · intro m j hm
        exact hi.old _ _ (hdir _ _ hm)
      · intro q k' t' i' rest' hq
        simp only [go, note] at hq ⊢
        by_cases hqp : q = p
        · subst hqp
          rw [upd_same] at hq
          simp at hq
        · rw [upd_ne _ _ hqp] at hq
          have hne : t' ≠ t := by
            rintro rfl
            exact hname q hqp (by rw [hq]; rfl)
          rw [hother t' hne]
          exact hi.opened q k' t' i' rest' hq
      · intro q k' t' hq
        simp only [go, note] at hq ⊢
        by_cases hqp : q = p
        · subst hqp
          rw [upd_same] at hq
          simp at hq
        · rw [upd_ne _ _ hqp] at hq
          have hne : t' ≠ t := by
            rintro rfl
            exact hname q hqp (by rw [hq]; rfl)
          rw [hother t' hne]
          exact hi.closed q k' t' hq
      · intro x y t' hx hy
        rw [hnm] at hx hy
        exact hi.apart x y t' hx hy
      · intro t' i' ht'
        by_cases hne : t' = t
        · subst hne
          exact .inl ⟨p, by rw [hnm, hp]; rfl⟩
        · simp only [go, note] at ht'
          rw [hother t' hne] at ht'
          rcases hi.temps t' i' ht' with ⟨q, hq⟩ | ⟨q, hq⟩
          · exact .inl ⟨q, by rw [hnm]; exact hq⟩
          · right
            exact ⟨q, by simp only [go, note]; rw [upd_ne _ _ (by rintro rfl; rw [hp] at hq; simp at hq)]; exact hq⟩
      · simp only [go, note, history]
        rw [hi.spec, Option.bind_some, ha]
        simp only [contents]
        rw [upd_same, Option.map_some, h2]
    have kept : ∀ (k : Kind) (t : Nat) (a : Act), s.pc p = .closed k t → a.spec text (contents s) = some (contents s) →
        Inv text (note (go s p (.cleanup (some t) false)) a) := by
      intro k t a hp ha
      exact inv_note (inv_go hi p _ (.inl (by rw [hp]; rfl)) (by simp) (by simp) (by simp [hp])) a ha
    split at h
    · rename_i t hp
      obtain rfl := Option.some.inj h
      obtain ⟨i, h1, h2⟩ := hi.closed p _ t hp
      unfold renameLock
      rw [h1]
      cases hl : s.dir .lock with
      | none =>
        simp only []
        exact moved _ t i none _ hp h1 (.inr rfl) (by simp [contents, hl, Act.spec])
      | some j =>
        simp only []
        exact kept _ t _ hp (by simp [contents, hl, Act.spec])
    · rename_i t hp
      obtain rfl := Option.some.inj h
      obtain ⟨i, h1, h2⟩ := hi.closed p _ t hp
      unfold renamePost
      rw [h1]
      cases hl : s.dir .lock with
      | none =>
        simp only []
        exact kept _ t _ hp (by simp [contents, hl, Act.spec])
      | some j =>
        simp only []
        exact moved _ t i (some j) _ hp h1 (.inl hl.symm) (by simp [contents, hl, Act.spec])
    · rename_i t hp
      obtain rfl := Option.some.inj h
      obtain ⟨i, h1, h2⟩ := hi.closed p _ t hp
      unfold renameFile
      rw [h1]
      simp only []
      exact moved _ t i none _ hp h1 (.inr rfl) (by simp [Act.spec])
    · simp at h
  | renameFail p =>
    simp only [step] at h
    split at h
    · rename_i k t hp
      obtain rfl := Option.some.inj h
      apply inv_note _ _ rfl
      exact inv_go hi p _ (.inl (by rw [hp]; rfl)) (by simp) (by simp) (by simp [hp])
    · simp at h
  | unlinkTemp p =>
    simp only [step] at h
    split at h
    · rename_i t ok hp
      obtain rfl := Option.some.inj h
      have hname : ∀ q, q ≠ p → (s.pc q).name ≠ some t := fun q hq hn =>
        hq (hi.apart q p t hn (by rw [hp]; rfl))
      have hsub : ∀ m j, upd s.dir (.temp t) none m = some j → m ≠ .temp t ∧ s.dir m = some j := by
        intro m j hm
        by_cases h1 : m = .temp t
        · rw [h1, upd_same] at hm
          simp at hm
        · rw [upd_ne _ _ h1] at hm
          exact ⟨h1, hm⟩
      have hi1 : Inv text { s with dir := upd s.dir (.temp t) none } := by
        refine ⟨?_, ?_, ?_, ?_, hi.apart, ?_, ?_⟩
        · intro m n j hm hn
          exact hi.inj m n j (hsub m j hm).2 (hsub n j hn).2
        · intro m j hm
          exact hi.old m j (hsub m j hm).2
        · intro q k' t' i' rest' hq
          simp only [] at hq ⊢
          have hne : t' ≠ t := by
            rintro rfl
            have : q = p := hi.apart q p t' (by rw [hq]; rfl) (by rw [hp]; rfl)
            rw [this, hp] at hq
            simp at hq
          rw [upd_ne _ _ (by simpa using hne)]
          exact hi.opened q k' t' i' rest' hq
        · intro q k' t' hq
          simp only [] at hq ⊢
          have hne : t' ≠ t := by
            rintro rfl
            have : q = p := hi.apart q p t' (by rw [hq]; rfl) (by rw [hp]; rfl)
            rw [this, hp] at hq
            simp at hq
          rw [upd_ne _ _ (by simpa using hne)]
          exact hi.closed q k' t' hq
        · intro t' j hm
          exact hi.temps t' j (hsub _ j hm).2
        · simp only []
          rw [hi.spec]
          simp only [contents]
          rw [upd_ne _ _ (by simp)]
      apply inv_go hi1 p _ (.inr ⟨rfl, _⟩) (by simp) (by simp) (by simp [hp])
      intro t' ht'
      simp only [] at ht' ⊢
      rw [hp] at ht'
      obtain rfl := Option.some.inj ht'
      left
      exact upd_same _ _ _
    · rename_i ok hp
      obtain rfl := Option.some.inj h
      exact inv_go hi p _ (.inl (by rw [hp]; rfl)) (by simp) (by simp) (by simp [hp])
    · simp at h
  | prelock p =>
    simp only [step] at h
    split at h
    · rename_i hp
      split at h
      · rename_i hl
        obtain rfl := Option.some.inj h
        have hnew : ∀ m, s.dir m ≠ some s.next := fun m hm => Nat.lt_irrefl _ (hi.old m _ hm)
        refine ⟨?_, ?_, ?_, ?_, hi.apart, ?_, ?_⟩
        · intro m n i hm hn
          simp only [note, create] at hm hn
          by_cases h1 : m = .lock <;> by_cases h2 : n = .lock
          · rw [h1, h2]
          · subst h1
            rw [upd_same] at hm
            rw [upd_ne _ _ h2] at hn
            rw [← Option.some.inj hm] at hn
            exact absurd hn (hnew n)
          · subst h2
            rw [upd_same] at hn
            rw [upd_ne _ _ h1] at hm
            rw [← Option.some.inj hn] at hm
            exact absurd hm (hnew m)
          · rw [upd_ne _ _ h1] at hm
            rw [upd_ne _ _ h2] at hn
            exact hi.inj m n i hm hn
        · intro m i hm
          simp only [note, create] at hm ⊢
          by_cases h1 : m = .lock
          · subst h1
            rw [upd_same] at hm
            obtain rfl := Option.some.inj hm
            omega
          · rw [upd_ne _ _ h1] at hm
            have := hi.old m i hm
            omega
        · intro q k' t' i rest hq
          simp only [note, create] at hq ⊢
          obtain ⟨h1, h2⟩ := hi.opened q k' t' i rest hq
          rw [upd_ne _ _ (by simp), upd_ne _ _ (by rintro rfl; exact hnew _ h1)]
          exact ⟨h1, h2⟩
        · intro q k' t' hq
          simp only [note, create] at hq ⊢
          obtain ⟨i, h1, h2⟩ := hi.closed q k' t' hq
          refine ⟨i, ?_⟩
          rw [upd_ne _ _ (by simp), upd_ne _ _ (by rintro rfl; exact hnew _ h1)]
          exact ⟨h1, h2⟩
        · intro t' i ht'
          simp only [note, create] at ht' ⊢
          rw [upd_ne _ _ (by simp)] at ht'
          exact hi.temps t' i ht'
        · simp only [note, create, history]
          rw [hi.spec, Option.bind_some]
          simp only [contents, hl]
          rw [upd_same]
          simp only [Option.map_some, Option.map_none]
          rw [upd_same]
          rfl
      · rename_i hl
        obtain rfl := Option.some.inj h
        apply inv_note hi
        obtain ⟨j, hj⟩ := Option.ne_none_iff_exists'.1 hl
        simp [contents, hj, Act.spec]
    · simp at h
  | prelockFail p =>
    simp only [step] at h
    split at h
    · obtain rfl := Option.some.inj h
      exact inv_note hi _ rfl
    · simp at h
  | unlock p =>
    simp only [step] at h
    split at h
    · split at h
      · rename_i hl
        obtain rfl := Option.some.inj h
        apply inv_note hi
        simp [contents, hl, Act.spec]
      · rename_i hl
        obtain rfl := Option.some.inj h
        obtain ⟨j, hj⟩ := Option.ne_none_iff_exists'.1 hl
        have hsub : ∀ m j, upd s.dir .lock none m = some j → m ≠ .lock ∧ s.dir m = some j := by
          intro m j hm
          by_cases h1 : m = .lock
          · rw [h1, upd_same] at hm
            simp at hm
          · rw [upd_ne _ _ h1] at hm
            exact ⟨h1, hm⟩
        refine ⟨?_, ?_, ?_, ?_, hi.apart, ?_, ?_⟩
        · intro m n i hm hn
          exact hi.inj m n i (hsub m i hm).2 (hsub n i hn).2
        · intro m i hm
          exact hi.old m i (hsub m i hm).2
        · intro q k' t' i rest hq
          simp only [note] at hq ⊢
          rw [upd_ne _ _ (by simp)]
          exact hi.opened q k' t' i rest hq
        · intro q k' t' hq
          simp only [note] at hq ⊢
          rw [upd_ne _ _ (by simp)]
          exact hi.closed q k' t' hq
        · intro t' i ht'
          exact hi.temps t' i (hsub (.temp t') i ht').2
        · simp only [note, history]
          rw [hi.spec, Option.bind_some]
          simp only [contents, hj]
          rw [upd_same]
          rfl
    · simp at h
  | unlockFail p =>
    simp only [step] at h
    split at h
    · obtain rfl := Option.some.inj h
      exact inv_note hi _ rfl
    · simp at h
  | crash p =>
    simp only [step] at h
    split at h
    · simp at h
    · rename_i hp
      obtain rfl := Option.some.inj h
      apply inv_go hi p _ (.inr ⟨rfl, _⟩) (by simp) (by simp) (by intro t ht; exact hp _ ht)
      intro t ht
      right
      rw [ht]

theorem run_inv {text : Nat → List Byte} {s s' : State} {es : List Event} (h : Run text s es s') (hi : Inv text s) :
    Inv text s' := by
  induction h with
  | nil => exact hi
  | snoc _ hf hs ih => exact step_inv ih _ hf hs

/-- A call that is about to return zero has had its effect, and one that is about to return a negative number has
not: the last thing that the process did has the same outcome. -/
def Returns (s : State) : Prop :=
  ∀ p t ok, s.pc p = .cleanup t ok → ∃ a, latest p s.log = some a ∧ a.success = ok

theorem latest_same (p : Nat) (a : Act) (l : List Act) (h : a.who = p) : latest p (a :: l) = some a := by
  simp [latest, h]

theorem latest_ne (p : Nat) (a : Act) (l : List Act) (h : a.who ≠ p) : latest p (a :: l) = latest p l := by
  simp [latest, h]

theorem step_returns {text : Nat → List Byte} {s s' : State} (hr : Returns s) (e : Event)
    (h : step text s e = some s') : Returns s' := by
  have quiet : ∀ (s1 : State) (p : Nat) (c : Pc), Returns s1 → (∀ t ok, c ≠ .cleanup t ok) → Returns (go s1 p c) := by
    intro s1 p c h1 hc q t ok hq
    simp only [go] at hq ⊢
    by_cases hqp : q = p
    · subst hqp
      rw [upd_same] at hq
      exact absurd hq (hc t ok)
    · rw [upd_ne _ _ hqp] at hq
      exact h1 q t ok hq
  have loud : ∀ (s1 : State) (p : Nat) (t : Option Nat) (ok : Bool) (a : Act), Returns s1 → a.who = p →
      a.success = ok → Returns (note (go s1 p (.cleanup t ok)) a) := by
    intro s1 p t ok a h1 ha hs q t' ok' hq
    simp only [go, note] at hq ⊢
    by_cases hqp : q = p
    · subst hqp
      rw [upd_same] at hq
      obtain ⟨-, rfl⟩ := Pc.cleanup.inj hq
      exact ⟨a, latest_same _ _ _ ha, hs⟩
    · rw [upd_ne _ _ hqp] at hq
      rw [latest_ne _ _ _ (by rw [ha]; exact fun h => hqp h.symm)]
      exact h1 q t' ok' hq
  have other : ∀ (s1 : State) (p : Nat) (a : Act), Returns s1 → a.who = p → s1.pc p = .idle → Returns (note s1 a) := by
    intro s1 p a h1 ha hp q t ok hq
    simp only [note] at hq ⊢
    have hqp : q ≠ p := by
      rintro rfl
      rw [hp] at hq
      simp at hq
    rw [latest_ne _ _ _ (by rw [ha]; exact fun h => hqp h.symm)]
    exact h1 q t ok hq
  cases e <;> simp only [step] at h
  case call p k =>
    split at h <;> simp only [Option.some.injEq, reduceCtorEq] at h
    subst h; exact quiet _ _ _ hr (by simp)
  case mkstemp p t =>
    split at h
    · split at h <;> simp only [Option.some.injEq, reduceCtorEq] at h
      subst h; exact quiet _ _ _ hr (by simp)
    · simp at h
  case mkstempFail p =>
    split at h <;> simp only [Option.some.injEq, reduceCtorEq] at h
    subst h; exact loud _ _ _ _ _ hr rfl rfl
  case write p n =>
    split at h <;> simp only [Option.some.injEq, reduceCtorEq] at h
    subst h; exact quiet _ _ _ hr (by simp)
  case fclose p =>
    split at h <;> simp only [Option.some.injEq, reduceCtorEq] at h
    subst h; exact quiet _ _ _ hr (by simp)
  case openFail p =>
    split at h <;> simp only [Option.some.injEq, reduceCtorEq] at h
    subst h; exact loud _ _ _ _ _ hr rfl rfl
  case fcloseFail p =>
    split at h <;> simp only [Option.some.injEq, reduceCtorEq] at h
    subst h; exact quiet _ _ _ hr (by simp)
  case rename p =>
    split at h <;> simp only [Option.some.injEq, reduceCtorEq] at h
    · subst h
      unfold renameLock
      split <;> exact loud _ _ _ _ _ hr rfl rfl
    · subst h
      unfold renamePost
      split <;> exact loud _ _ _ _ _ hr rfl rfl
    · subst h
      unfold renameFile
      split <;> exact loud _ _ _ _ _ hr rfl rfl
  case renameFail p =>
    split at h <;> simp only [Option.some.injEq, reduceCtorEq] at h
    subst h; exact loud _ _ _ _ _ hr rfl rfl
  case unlinkTemp p =>
    split at h <;> simp only [Option.some.injEq, reduceCtorEq] at h
    · subst h; exact quiet _ _ _ hr (by simp)
    · subst h; exact quiet _ _ _ hr (by simp)
  case prelock p =>
    split at h
    · rename_i hp
      split at h <;> simp only [Option.some.injEq] at h
      · subst h; exact other _ p _ hr rfl hp
      · subst h; exact other _ p _ hr rfl hp
    · simp at h
  case prelockFail p =>
    split at h <;> simp only [Option.some.injEq, reduceCtorEq] at h
    rename_i hp
    subst h; exact other _ p _ hr rfl hp
  case unlock p =>
    split at h
    · rename_i hp
      split at h <;> simp only [Option.some.injEq] at h
      · subst h; exact other _ p _ hr rfl hp
      · subst h; exact other _ p _ hr rfl hp
    · simp at h
  case unlockFail p =>
    split at h <;> simp only [Option.some.injEq, reduceCtorEq] at h
    rename_i hp
    subst h; exact other _ p _ hr rfl hp
  case crash p =>
    split at h <;> simp only [Option.some.injEq, reduceCtorEq] at h
    subst h; exact quiet _ _ _ hr (by simp)

end Diminuto.Lock
