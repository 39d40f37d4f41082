import Verif.ObservationSpec

/-!
# Lemmas: the Observation (C42)
-/

namespace Diminuto.Observation

structure Inv (old : Option (List Byte)) (s : State) : Prop where
  low : ∀ m i, s.dir m = some i → i < s.next
  temps : ∀ t u i, s.dir (.temp t) = some i → s.dir (.temp u) = some i → t = u
  final : ∀ t i, s.dir (.temp t) = some i → s.dir .final ≠ some i
  opened : ∀ o t i pending, s.pc o = .opened t i pending → s.dir (.temp t) = some i ∧ s.data i ++ pending = s.written o
  closed : ∀ o t i, s.pc o = .closed t i → s.dir (.temp t) = some i ∧ s.data i = s.written o
  named : ∀ o t, (s.pc o).name = some t → s.dir (.temp t) ≠ none
  apart : ∀ o q t, (s.pc o).name = some t → (s.pc q).name = some t → o = q
  owner : ∀ t, s.dir (.temp t) ≠ none → ∃ o, (s.pc o).name = some t
  check : ∀ c i, s.dir (.check c) = some i → ∃ o, s.data i <+: s.written o ∧ ∀ q t p, s.pc q = .opened t i p → q = o
  sealed : ∀ o, o ∈ s.commits → s.pc o = .committed ∨ ∃ t, s.pc o = .crashed t
  spec : contents s = expected old s

theorem upd_same {α β : Type} [DecidableEq α] (f : α → β) (i : α) (x : β) : upd f i x i = x := by simp [upd]

theorem upd_ne {α β : Type} [DecidableEq α] (f : α → β) {i j : α} (x : β) (h : j ≠ i) : upd f i x j = f j := by
  simp [upd, h]

theorem upd_eq {α β : Type} [DecidableEq α] {f : α → β} {i j : α} {x y : β} (h : upd f i x j = y) :
    (j = i ∧ x = y) ∨ (j ≠ i ∧ f j = y) := by
  unfold upd at h
  split at h
  · rename_i hj; exact .inl ⟨hj, h⟩
  · rename_i hj; exact .inr ⟨hj, h⟩

theorem inv_start (old : Option (List Byte)) : Inv old (start old) := by
  refine ⟨?_, ?_, ?_, ?_, ?_, ?_, ?_, ?_, ?_, ?_, ?_⟩
  · intro m i h
    simp only [start] at h ⊢
    split at h
    · cases old <;> simp at h
      omega
    · simp at h
  all_goals first
    | (cases old <;> simp [start, contents, expected]; done)
    | simp [start, Pc.name]

/-- The name of an observation changes to one that it had, and the file system stays. -/
theorem inv_pc {old : Option (List Byte)} {s : State} (hi : Inv old s) (o : Nat) (c : Pc) (hn : c.name = (s.pc o).name)
    (ho : ∀ t i p, c ≠ .opened t i p) (hc : ∀ t i, c ≠ .closed t i)
    (hs : o ∈ s.commits → c = .committed ∨ ∃ t, c = .crashed t) : Inv old { s with pc := upd s.pc o c } := by
  have hname : ∀ q, (upd s.pc o c q).name = (s.pc q).name := by
    intro q
    by_cases hq : q = o
    · rw [hq, upd_same, hn]
    · rw [upd_ne _ _ hq]
  have hop : ∀ q t i p, upd s.pc o c q = .opened t i p → s.pc q = .opened t i p := by
    intro q t i p h
    replace h := upd_eq h; rcases h with ⟨-, h⟩ | ⟨-, h⟩
    · exact absurd h (ho t i p)
    · exact h
  refine ⟨hi.low, hi.temps, hi.final, ?_, ?_, ?_, ?_, ?_, ?_, ?_, hi.spec⟩
  · intro q t i p h
    exact hi.opened q t i p (hop q t i p h)
  · intro q t i h
    replace h := upd_eq h; rcases h with ⟨-, h⟩ | ⟨-, h⟩
    · exact absurd h (hc t i)
    · exact hi.closed q t i h
  · intro q t h
    simp only [hname] at h
    exact hi.named q t h
  · intro a b t h1 h2
    simp only [hname] at h1 h2
    exact hi.apart a b t h1 h2
  · intro t h
    obtain ⟨q, hq⟩ := hi.owner t h
    exact ⟨q, by simp only [hname]; exact hq⟩
  · intro x i h
    obtain ⟨q, h1, h2⟩ := hi.check x i h
    exact ⟨q, h1, fun r t p hr => h2 r t p (hop r t i p hr)⟩
  · intro q hq
    by_cases hqo : q = o
    · subst hqo
      simp only [upd_same]
      exact hs hq
    · simp only [upd_ne _ _ hqo]
      exact hi.sealed q hq

/-- More of what was written reaches the file. -/
theorem inv_flush {old : Option (List Byte)} {s : State} (hi : Inv old s) (o t i : Nat) (pending : List Byte) (n : Nat)
    (hp : s.pc o = .opened t i pending) :
    Inv old { s with data := upd s.data i (s.data i ++ pending.take n), pc := upd s.pc o (.opened t i (pending.drop n)) } := by
  obtain ⟨h1, h2⟩ := hi.opened o t i pending hp
  have hname : ∀ q, (upd s.pc o (.opened t i (pending.drop n)) q).name = (s.pc q).name := by
    intro q
    by_cases hq : q = o
    · rw [hq, upd_same, hp]; rfl
    · rw [upd_ne _ _ hq]
  have hne : ∀ q t' i', q ≠ o → (s.pc q).name = some t' → s.dir (.temp t') = some i' → i' ≠ i := by
    rintro q t' i' hq hn hd rfl
    have := hi.temps t' t i' hd h1
    subst this
    exact hq (hi.apart q o t' hn (by rw [hp]; rfl))
  refine ⟨hi.low, hi.temps, hi.final, ?_, ?_, ?_, ?_, ?_, ?_, ?_, ?_⟩
  · intro q t' i' p' h
    replace h := upd_eq h; rcases h with ⟨rfl, h⟩ | ⟨hq, h⟩
    · obtain ⟨rfl, rfl, rfl⟩ := Pc.opened.inj h
      refine ⟨h1, ?_⟩
      simp only [upd_same]
      rw [List.append_assoc, List.take_append_drop]
      exact h2
    · obtain ⟨h3, h4⟩ := hi.opened q t' i' p' h
      refine ⟨h3, ?_⟩
      simp only []
      rw [upd_ne _ _ (hne q t' i' hq (by rw [h]; rfl) h3)]
      exact h4
  · intro q t' i' h
    replace h := upd_eq h; rcases h with ⟨-, h⟩ | ⟨hq, h⟩
    · simp at h
    · obtain ⟨h3, h4⟩ := hi.closed q t' i' h
      refine ⟨h3, ?_⟩
      simp only []
      rw [upd_ne _ _ (hne q t' i' hq (by rw [h]; rfl) h3)]
      exact h4
  · intro q t' h
    simp only [hname] at h
    exact hi.named q t' h
  · intro a b t' ha hb
    simp only [hname] at ha hb
    exact hi.apart a b t' ha hb
  · intro t' h
    obtain ⟨q, hq⟩ := hi.owner t' h
    exact ⟨q, by simp only [hname]; exact hq⟩
  · intro c i' h
    obtain ⟨q, h3, h4⟩ := hi.check c i' h
    have hop : ∀ r t' p, upd s.pc o (.opened t i (pending.drop n)) r = .opened t' i' p → r = q := by
      intro r t' p hr
      replace hr := upd_eq hr; rcases hr with ⟨rfl, hr⟩ | ⟨-, hr⟩
      · obtain ⟨rfl, rfl, rfl⟩ := Pc.opened.inj hr
        exact h4 r t pending hp
      · exact h4 r t' p hr
    refine ⟨q, ?_, hop⟩
    simp only []
    by_cases hii : i' = i
    · subst hii
      have : o = q := h4 o t pending hp
      subst this
      rw [upd_same, ← h2]
      exact ⟨pending.drop n, by rw [List.append_assoc, List.take_append_drop]⟩
    · rw [upd_ne _ _ hii]
      exact h3
  · intro q hq
    have hqo : q ≠ o := by
      rintro rfl
      have := hi.sealed q hq
      rw [hp] at this
      simp at this
    simp only [upd_ne _ _ hqo]
    exact hi.sealed q hq
  · have := hi.spec
    rw [show expected old { s with data := upd s.data i (s.data i ++ pending.take n), pc := upd s.pc o (.opened t i (pending.drop n)) } =
      expected old s from rfl, ← this]
    simp only [contents]
    cases hf : s.dir .final with
    | none => rfl
    | some j =>
      simp only [Option.map_some]
      rw [upd_ne _ _ (by rintro rfl; exact hi.final t j h1 hf)]

theorem inv_flush_all {old : Option (List Byte)} {s : State} (hi : Inv old s) (o t i : Nat) (pending : List Byte)
    (hp : s.pc o = .opened t i pending) :
    Inv old { s with data := upd s.data i (s.data i ++ pending), pc := upd s.pc o (.opened t i []) } := by
  have := inv_flush hi o t i pending pending.length hp
  simpa using this

theorem upd_twice {α β : Type} [DecidableEq α] (f : α → β) (i : α) (x y : β) : upd (upd f i x) i y = upd f i y := by
  funext j
  simp only [upd]
  split <;> rfl

/-- A new temporary file. -/
theorem inv_mkstemp {old : Option (List Byte)} {s : State} (hi : Inv old s) (o t : Nat) (c : Pc) (hp : s.pc o = .none)
    (ht : s.dir (.temp t) = none) (hn : c.name = some t) (ho : ∀ t' i p, c = .opened t' i p → t' = t ∧ i = s.next ∧ p = [])
    (hw : (∃ t' i p, c = .opened t' i p) → s.written o = []) (hc : ∀ t i, c ≠ .closed t i) :
    Inv old { mkstemp s t with pc := upd s.pc o c } := by
  have hnew : ∀ m, s.dir m ≠ some s.next := fun m hm => Nat.lt_irrefl _ (hi.low m _ hm)
  have hfree : ∀ q, (s.pc q).name ≠ some t := fun q hq => hi.named q t hq ht
  have hname : ∀ q t', (upd s.pc o c q).name = some t' → (q = o ∧ t' = t) ∨ (q ≠ o ∧ t' ≠ t ∧ (s.pc q).name = some t') := by
    intro q t' h
    by_cases hq : q = o
    · subst hq
      rw [upd_same, hn] at h
      exact .inl ⟨rfl, (Option.some.inj h).symm⟩
    · rw [upd_ne _ _ hq] at h
      exact .inr ⟨hq, by rintro rfl; exact hfree q h, h⟩
  have hdir : ∀ m i, upd s.dir (.temp t) (some s.next) m = some i →
      (m = .temp t ∧ i = s.next) ∨ (m ≠ .temp t ∧ s.dir m = some i ∧ i < s.next) := by
    intro m i h
    replace h := upd_eq h; rcases h with ⟨h1, h2⟩ | ⟨h1, h2⟩
    · exact .inl ⟨h1, (Option.some.inj h2).symm⟩
    · exact .inr ⟨h1, h2, hi.low m i h2⟩
  refine ⟨?_, ?_, ?_, ?_, ?_, ?_, ?_, ?_, ?_, ?_, ?_⟩
  · intro m i h
    simp only [mkstemp] at h ⊢
    rcases hdir m i h with ⟨-, h⟩ | ⟨-, -, h⟩ <;> omega
  · intro a b i h1 h2
    simp only [mkstemp] at h1 h2
    rcases hdir _ i h1 with ⟨h3, h4⟩ | ⟨h3, h4, h5⟩ <;> rcases hdir _ i h2 with ⟨h6, h7⟩ | ⟨h6, h7, h8⟩
    · rw [Name.temp.inj h3, Name.temp.inj h6]
    · omega
    · omega
    · exact hi.temps a b i h4 h7
  · intro a i h1 h2
    simp only [mkstemp] at h1 h2
    rcases hdir _ i h1 with ⟨h3, h4⟩ | ⟨h3, h4, h5⟩ <;> rcases hdir _ i h2 with ⟨h6, h7⟩ | ⟨h6, h7, h8⟩
    · simp at h6
    · omega
    · omega
    · exact hi.final a i h4 h7
  · intro q t' i p h
    simp only [mkstemp] at h ⊢
    replace h := upd_eq h; rcases h with ⟨rfl, h⟩ | ⟨hq, h⟩
    · obtain ⟨rfl, rfl, rfl⟩ := ho t' i p h
      rw [upd_same, upd_same]
      refine ⟨rfl, ?_⟩
      rw [hw ⟨_, _, _, h⟩]
      rfl
    · obtain ⟨h1, h2⟩ := hi.opened q t' i p h
      have hne : t' ≠ t := by rintro rfl; rw [ht] at h1; simp at h1
      rw [upd_ne _ _ (by simpa using hne), upd_ne _ _ (by rintro rfl; exact hnew _ h1)]
      exact ⟨h1, h2⟩
  · intro q t' i h
    simp only [mkstemp] at h ⊢
    replace h := upd_eq h; rcases h with ⟨rfl, h⟩ | ⟨hq, h⟩
    · exact absurd h (hc t' i)
    · obtain ⟨h1, h2⟩ := hi.closed q t' i h
      have hne : t' ≠ t := by rintro rfl; rw [ht] at h1; simp at h1
      rw [upd_ne _ _ (by simpa using hne), upd_ne _ _ (by rintro rfl; exact hnew _ h1)]
      exact ⟨h1, h2⟩
  · intro q t' h
    simp only [mkstemp] at h ⊢
    rcases hname q t' h with ⟨-, rfl⟩ | ⟨-, hne, h⟩
    · rw [upd_same]; simp
    · rw [upd_ne _ _ (by simpa using hne)]
      exact hi.named q t' h
  · intro a b t' ha hb
    simp only [] at ha hb
    rcases hname a t' ha with ⟨h1, h2⟩ | ⟨h1, h2, h3⟩ <;> rcases hname b t' hb with ⟨h4, h5⟩ | ⟨h4, h5, h6⟩
    · rw [h1, h4]
    · exact absurd h2 h5
    · exact absurd h5 h2
    · exact hi.apart a b t' h3 h6
  · intro t' h
    simp only [mkstemp] at h ⊢
    by_cases hne : t' = t
    · subst hne
      exact ⟨o, by rw [upd_same]; exact hn⟩
    · rw [upd_ne _ _ (by simpa using hne)] at h
      obtain ⟨q, hq⟩ := hi.owner t' h
      refine ⟨q, ?_⟩
      rw [upd_ne _ _ (by rintro rfl; rw [hp] at hq; simp [Pc.name] at hq)]
      exact hq
  · intro x i h
    simp only [mkstemp] at h ⊢
    rw [upd_ne _ _ (by simp)] at h
    have hlt := hi.low _ _ h
    obtain ⟨q, h1, h2⟩ := hi.check x i h
    refine ⟨q, ?_, ?_⟩
    · rw [upd_ne _ _ (by omega)]
      exact h1
    · intro r t' p hr
      replace hr := upd_eq hr; rcases hr with ⟨rfl, hr⟩ | ⟨-, hr⟩
      · have := (ho t' i p hr).2.1
        omega
      · exact h2 r t' p hr
  · intro q hq
    have hqo : q ≠ o := by
      rintro rfl
      have := hi.sealed q hq
      rw [hp] at this
      simp at this
    simp only [upd_ne _ _ hqo]
    exact hi.sealed q hq
  · rw [show expected old { mkstemp s t with pc := upd s.pc o c } = expected old s from rfl, ← hi.spec]
    simp only [contents, mkstemp]
    rw [upd_ne _ _ (by simp)]
    cases hf : s.dir .final with
    | none => rfl
    | some j =>
      simp only [Option.map_some]
      rw [upd_ne _ _ (by rintro rfl; exact hnew _ hf)]

/-- Nothing has been written to observations that have not been created. -/
def Blank (s : State) : Prop := ∀ o, s.pc o = .none → s.written o = []

theorem step_blank {length : Nat} {s s' : State} (hb : Blank s) (e : Event) (h : step length s e = some s') : Blank s' := by
  have pcs : ∀ (o : Nat) (c : Pc), c ≠ .none → ∀ q, upd s.pc o c q = .none → s.written q = [] := by
    intro o c hc q hq
    rcases upd_eq hq with ⟨-, h⟩ | ⟨-, h⟩
    · exact absurd h hc
    · exact hb q h
  cases e <;> simp only [step] at h
  case write o bs =>
    split at h <;> simp only [Option.some.injEq, reduceCtorEq] at h
    subst h
    intro q hq
    rcases upd_eq hq with ⟨-, h⟩ | ⟨hqo, h⟩
    · simp at h
    · simp only [upd_ne _ _ hqo]
      exact hb q h
  case commit o =>
    split at h
    · split at h <;> simp only [Option.some.injEq] at h <;> subst h
      · exact pcs o _ (by simp)
      · exact hb
    · simp at h
  case checkpoint o c =>
    split at h
    · split at h <;> simp only [Option.some.injEq, reduceCtorEq] at h
      subst h
      exact hb
    · simp at h
  case crash o =>
    simp only [Option.some.injEq] at h
    subst h
    exact pcs o _ (by simp)
  all_goals
    split at h <;> simp only [Option.some.injEq, reduceCtorEq] at h
    subst h
    exact pcs _ _ (by simp)

theorem step_inv {old : Option (List Byte)} {length : Nat} {s s' : State} (hi : Inv old s) (hb : Blank s) (e : Event)
    (h : step length s e = some s') : Inv old s' := by
  cases e with
  | create o t =>
    simp only [step] at h
    split at h
    · rename_i hc
      simp only [Option.some.injEq] at h; subst h
      apply inv_mkstemp hi o t _ hc.1 hc.2.2 rfl
      · intro t' i p h
        obtain ⟨rfl, rfl, rfl⟩ := Pc.opened.inj h
        exact ⟨rfl, rfl, rfl⟩
      · intro _; exact hb o hc.1
      · simp
    · simp at h
  | createFail o =>
    simp only [step] at h
    split at h
    · rename_i hc
      simp only [Option.some.injEq] at h; subst h
      apply inv_pc hi o _ (by rw [hc]; rfl) (by simp) (by simp)
      intro ho
      have := hi.sealed o ho
      rw [hc] at this
      simp at this
    · simp at h
  | createLeak o t =>
    simp only [step] at h
    split at h
    · rename_i hc
      simp only [Option.some.injEq] at h; subst h
      exact inv_mkstemp hi o t _ hc.1 hc.2.2 rfl (by simp) (by simp) (by simp)
    · simp at h
  | write o bs =>
    simp only [step] at h
    split at h
    · rename_i t i pending hp
      simp only [Option.some.injEq] at h; subst h
      obtain ⟨h1, h2⟩ := hi.opened o t i pending hp
      have hname : ∀ q, (upd s.pc o (.opened t i (pending ++ bs)) q).name = (s.pc q).name := by
        intro q
        by_cases hq : q = o
        · rw [hq, upd_same, hp]; rfl
        · rw [upd_ne _ _ hq]
      refine ⟨hi.low, hi.temps, hi.final, ?_, ?_, ?_, ?_, ?_, ?_, ?_, ?_⟩
      · intro q t' i' p' h
        replace h := upd_eq h; rcases h with ⟨rfl, h⟩ | ⟨hq, h⟩
        · obtain ⟨rfl, rfl, rfl⟩ := Pc.opened.inj h
          refine ⟨h1, ?_⟩
          simp only [upd_same]
          rw [← List.append_assoc, h2]
        · obtain ⟨h3, h4⟩ := hi.opened q t' i' p' h
          refine ⟨h3, ?_⟩
          simp only []
          rw [upd_ne _ _ hq]
          exact h4
      · intro q t' i' h
        replace h := upd_eq h; rcases h with ⟨-, h⟩ | ⟨hq, h⟩
        · simp at h
        · obtain ⟨h3, h4⟩ := hi.closed q t' i' h
          refine ⟨h3, ?_⟩
          simp only []
          rw [upd_ne _ _ hq]
          exact h4
      · intro q t' h
        simp only [hname] at h
        exact hi.named q t' h
      · intro a b t' ha hb
        simp only [hname] at ha hb
        exact hi.apart a b t' ha hb
      · intro t' h
        obtain ⟨q, hq⟩ := hi.owner t' h
        exact ⟨q, by simp only [hname]; exact hq⟩
      · intro c i' h
        obtain ⟨q, h3, h4⟩ := hi.check c i' h
        refine ⟨q, ?_, ?_⟩
        · simp only []
          by_cases hq : q = o
          · subst hq
            rw [upd_same]
            exact h3.trans (List.prefix_append _ _)
          · rw [upd_ne _ _ hq]
            exact h3
        · intro r t' p hr
          replace hr := upd_eq hr; rcases hr with ⟨rfl, hr⟩ | ⟨-, hr⟩
          · obtain ⟨rfl, rfl, rfl⟩ := Pc.opened.inj hr
            exact h4 r t pending hp
          · exact h4 r t' p hr
      · intro q hq
        have hqo : q ≠ o := by
          rintro rfl
          have := hi.sealed q hq
          rw [hp] at this
          simp at this
        simp only [upd_ne _ _ hqo]
        exact hi.sealed q hq
      · have := hi.spec
        simp only [contents, expected] at this ⊢
        rw [this]
        cases hcm : s.commits with
        | nil => rfl
        | cons q l =>
          simp only [Option.some.injEq]
          rw [upd_ne]
          rintro rfl
          have := hi.sealed q (by rw [hcm]; simp)
          rw [hp] at this
          simp at this
    · simp at h
  | flush o n =>
    simp only [step] at h
    split at h
    · rename_i t i pending hp
      simp only [Option.some.injEq] at h; subst h
      exact inv_flush hi o t i pending n hp
    · simp at h
  | checkpoint o c =>
    simp only [step] at h
    split at h
    · rename_i t i pending hp
      split at h
      · rename_i hc
        simp only [Option.some.injEq] at h; subst h
        obtain ⟨h1, h2⟩ := hi.opened o t i pending hp
        refine ⟨?_, ?_, ?_, ?_, ?_, ?_, hi.apart, ?_, ?_, hi.sealed, ?_⟩
        · intro m j h
          replace h := upd_eq h; rcases h with ⟨-, h⟩ | ⟨-, h⟩
          · exact hi.low _ _ h
          · exact hi.low _ _ h
        · intro a b j ha hb
          simp only [upd_ne _ _ (show Name.temp a ≠ .check c by simp), upd_ne _ _ (show Name.temp b ≠ .check c by simp)] at ha hb
          exact hi.temps a b j ha hb
        · intro a j ha
          simp only [upd_ne _ _ (show Name.temp a ≠ .check c by simp), upd_ne _ _ (show Name.final ≠ .check c by simp)] at ha ⊢
          exact hi.final a j ha
        · intro q t' i' p' h
          simp only [upd_ne _ _ (show Name.temp t' ≠ .check c by simp)]
          exact hi.opened q t' i' p' h
        · intro q t' i' h
          simp only [upd_ne _ _ (show Name.temp t' ≠ .check c by simp)]
          exact hi.closed q t' i' h
        · intro q t' h
          simp only [upd_ne _ _ (show Name.temp t' ≠ .check c by simp)]
          exact hi.named q t' h
        · intro t' h
          simp only [upd_ne _ _ (show Name.temp t' ≠ .check c by simp)] at h
          exact hi.owner t' h
        · intro x j h
          replace h := upd_eq h; rcases h with ⟨-, h⟩ | ⟨-, h⟩
          · rw [h1] at h
            simp only [Option.some.injEq] at h; subst h
            refine ⟨o, by simp only []; rw [← h2]; exact List.prefix_append _ _, ?_⟩
            intro q t' p hq
            have h3 := (hi.opened q t' i p hq).1
            have := hi.temps t' t i h3 h1
            subst this
            exact hi.apart q o t' (by rw [show s.pc q = _ from hq]; rfl) (by rw [hp]; rfl)
          · exact hi.check x j h
        · have := hi.spec
          simp only [contents, expected] at this ⊢
          rw [upd_ne _ _ (by simp)]
          exact this
      · simp at h
    · simp at h
  | commit o =>
    simp only [step] at h
    split at h
    · rename_i t i pending hp
      split at h
      · simp only [Option.some.injEq] at h; subst h
        have h1 := inv_flush_all hi o t i pending hp
        obtain ⟨h2, h3⟩ := h1.opened o t i [] (upd_same _ _ _)
        -- as opened with nothing pending
        have hname : ∀ q, (upd s.pc o (.closed t i) q).name = (upd s.pc o (.opened t i []) q).name := by
          intro q
          by_cases hq : q = o
          · rw [hq, upd_same, upd_same]; rfl
          · rw [upd_ne _ _ hq, upd_ne _ _ hq]
        refine ⟨h1.low, h1.temps, h1.final, ?_, ?_, ?_, ?_, ?_, ?_, ?_, h1.spec⟩
        · intro q t' i' p' h
          replace h := upd_eq h; rcases h with ⟨-, h⟩ | ⟨hq, h⟩
          · simp at h
          · exact h1.opened q t' i' p' (by simp only []; rw [upd_ne _ _ hq]; exact h)
        · intro q t' i' h
          replace h := upd_eq h; rcases h with ⟨rfl, h⟩ | ⟨hq, h⟩
          · obtain ⟨rfl, rfl⟩ := Pc.closed.inj h
            exact ⟨h2, by simpa using h3⟩
          · exact h1.closed q t' i' (by simp only []; rw [upd_ne _ _ hq]; exact h)
        · intro q t' h
          simp only [hname] at h
          exact h1.named q t' h
        · intro a b t' ha hb
          simp only [hname] at ha hb
          exact h1.apart a b t' ha hb
        · intro t' h
          obtain ⟨q, hq⟩ := h1.owner t' h
          exact ⟨q, by simp only [hname]; exact hq⟩
        · intro c j h
          obtain ⟨q, h4, h5⟩ := h1.check c j h
          refine ⟨q, h4, ?_⟩
          intro r t' p hr
          replace hr := upd_eq hr; rcases hr with ⟨-, hr⟩ | ⟨hro, hr⟩
          · simp at hr
          · exact h5 r t' p (by simp only []; rw [upd_ne _ _ hro]; exact hr)
        · intro q hq
          have hqo : q ≠ o := by
            rintro rfl
            have := hi.sealed q hq
            rw [hp] at this
            simp at this
          simp only [upd_ne _ _ hqo]
          exact hi.sealed q hq
      · simp only [Option.some.injEq] at h; subst h
        exact hi
    · simp at h
  | fcloseFail o n =>
    simp only [step] at h
    split at h
    · rename_i t i pending hp
      simp only [Option.some.injEq] at h; subst h
      have := inv_pc (inv_flush hi o t i pending n hp) o (.failed t) (by simp [upd_same, Pc.name]) (by simp) (by simp)
        (by
          intro ho
          have := hi.sealed o ho
          rw [hp] at this
          simp at this)
      simp only [upd_twice] at this
      exact this
    · simp at h
  | rename o =>
    simp only [step] at h
    split at h
    · rename_i t i hp
      simp only [Option.some.injEq] at h; subst h
      obtain ⟨h1, h2⟩ := hi.closed o t i hp
      have hdir : ∀ m j, upd (upd s.dir .final (s.dir (.temp t))) (.temp t) none m = some j →
          m ≠ .temp t ∧ ((m = .final ∧ j = i) ∨ (m ≠ .final ∧ s.dir m = some j)) := by
        intro m j h
        replace h := upd_eq h; rcases h with ⟨-, h⟩ | ⟨hm, h⟩
        · simp at h
        · refine ⟨hm, ?_⟩
          replace h := upd_eq h; rcases h with ⟨hf, h⟩ | ⟨hf, h⟩
          · rw [h1] at h
            exact .inl ⟨hf, (Option.some.inj h).symm⟩
          · exact .inr ⟨hf, h⟩
      have hother : ∀ t', t' ≠ t → upd (upd s.dir .final (s.dir (.temp t))) (.temp t) none (.temp t') = s.dir (.temp t') := by
        intro t' hne
        rw [upd_ne _ _ (by simpa using hne), upd_ne _ _ (by simp)]
      have hmine : ∀ q t', q ≠ o → (s.pc q).name = some t' → t' ≠ t := by
        rintro q t' hq hn rfl
        exact hq (hi.apart q o t' hn (by rw [hp]; rfl))
      have hname : ∀ q t', (upd s.pc o .committed q).name = some t' → q ≠ o ∧ (s.pc q).name = some t' := by
        intro q t' h
        by_cases hq : q = o
        · subst hq; rw [upd_same] at h; simp [Pc.name] at h
        · rw [upd_ne _ _ hq] at h; exact ⟨hq, h⟩
      refine ⟨?_, ?_, ?_, ?_, ?_, ?_, ?_, ?_, ?_, ?_, ?_⟩
      · intro m j h
        rcases hdir m j h with ⟨-, ⟨-, h⟩ | ⟨-, h⟩⟩
        · rw [h]; exact hi.low _ _ h1
        · exact hi.low _ _ h
      · intro a b j ha hb
        rcases hdir _ j ha with ⟨-, ⟨h, -⟩ | ⟨-, ha⟩⟩
        · simp at h
        · rcases hdir _ j hb with ⟨-, ⟨h, -⟩ | ⟨-, hb⟩⟩
          · simp at h
          · exact hi.temps a b j ha hb
      · intro a j ha hf
        rcases hdir _ j ha with ⟨hat, ⟨h, -⟩ | ⟨-, ha⟩⟩
        · simp at h
        · rcases hdir .final j hf with ⟨-, ⟨-, h⟩ | ⟨h, -⟩⟩
          · subst h
            exact hat (by rw [hi.temps a t j ha h1])
          · simp at h
      · intro q t' i' p' h
        replace h := upd_eq h; rcases h with ⟨-, h⟩ | ⟨hq, h⟩
        · simp at h
        · simp only [hother t' (hmine q t' hq (by rw [h]; rfl))]
          exact hi.opened q t' i' p' h
      · intro q t' i' h
        replace h := upd_eq h; rcases h with ⟨-, h⟩ | ⟨hq, h⟩
        · simp at h
        · simp only [hother t' (hmine q t' hq (by rw [h]; rfl))]
          exact hi.closed q t' i' h
      · intro q t' h
        obtain ⟨hq, h⟩ := hname q t' h
        simp only [hother t' (hmine q t' hq h)]
        exact hi.named q t' h
      · intro a b t' ha hb
        exact hi.apart a b t' (hname a t' ha).2 (hname b t' hb).2
      · intro t' h
        simp only [] at h
        have hne : t' ≠ t := by rintro rfl; rw [upd_same] at h; simp at h
        rw [hother t' hne] at h
        obtain ⟨q, hq⟩ := hi.owner t' h
        refine ⟨q, ?_⟩
        simp only []
        rw [upd_ne _ _ (by rintro rfl; rw [hp] at hq; exact hne (Option.some.inj hq).symm)]
        exact hq
      · intro c j h
        rcases hdir (.check c) j h with ⟨-, ⟨h, -⟩ | ⟨-, h⟩⟩
        · simp at h
        · obtain ⟨q, h3, h4⟩ := hi.check c j h
          refine ⟨q, h3, ?_⟩
          intro r t' p hr
          replace hr := upd_eq hr; rcases hr with ⟨-, hr⟩ | ⟨-, hr⟩
          · simp at hr
          · exact h4 r t' p hr
      · intro q hq
        simp only []
        by_cases hqo : q = o
        · subst hqo; rw [upd_same]; exact .inl rfl
        · rw [upd_ne _ _ hqo]
          rcases List.mem_cons.1 hq with h | h
          · exact absurd h hqo
          · exact hi.sealed q h
      · simp only [contents, expected]
        rw [upd_ne _ _ (by simp), upd_same, h1, Option.map_some, h2]
    · simp at h
  | renameFail o =>
    simp only [step] at h
    split at h
    · rename_i t i hp
      simp only [Option.some.injEq] at h; subst h
      apply inv_pc hi o _ (by rw [hp]; rfl) (by simp) (by simp)
      intro ho
      have := hi.sealed o ho
      rw [hp] at this
      simp at this
    · simp at h
  | discard o =>
    simp only [step] at h
    split at h
    · rename_i t i pending hp
      simp only [Option.some.injEq] at h; subst h
      have := inv_pc (inv_flush_all hi o t i pending hp) o (.discarding t) (by simp [upd_same, Pc.name]) (by simp) (by simp)
        (by
          intro ho
          have := hi.sealed o ho
          rw [hp] at this
          simp at this)
      simp only [upd_twice] at this
      exact this
    · simp at h
  | unlink o =>
    simp only [step] at h
    split at h
    · rename_i t hp
      simp only [Option.some.injEq] at h; subst h
      have hdir : ∀ m j, upd s.dir (.temp t) none m = some j → m ≠ .temp t ∧ s.dir m = some j := by
        intro m j h
        replace h := upd_eq h; rcases h with ⟨-, h⟩ | ⟨hm, h⟩
        · simp at h
        · exact ⟨hm, h⟩
      have hother : ∀ t', t' ≠ t → upd s.dir (.temp t) none (.temp t') = s.dir (.temp t') := by
        intro t' hne
        rw [upd_ne _ _ (by simpa using hne)]
      have hmine : ∀ q t', q ≠ o → (s.pc q).name = some t' → t' ≠ t := by
        rintro q t' hq hn rfl
        exact hq (hi.apart q o t' hn (by rw [hp]; rfl))
      have hname : ∀ q t', (upd s.pc o .discarded q).name = some t' → q ≠ o ∧ (s.pc q).name = some t' := by
        intro q t' h
        by_cases hq : q = o
        · subst hq; rw [upd_same] at h; simp [Pc.name] at h
        · rw [upd_ne _ _ hq] at h; exact ⟨hq, h⟩
      refine ⟨?_, ?_, ?_, ?_, ?_, ?_, ?_, ?_, ?_, ?_, ?_⟩
      · intro m j h
        exact hi.low _ _ (hdir m j h).2
      · intro a b j ha hb
        exact hi.temps a b j (hdir _ _ ha).2 (hdir _ _ hb).2
      · intro a j ha hf
        exact hi.final a j (hdir _ _ ha).2 (hdir _ _ hf).2
      · intro q t' i' p' h
        replace h := upd_eq h; rcases h with ⟨-, h⟩ | ⟨hq, h⟩
        · simp at h
        · simp only [hother t' (hmine q t' hq (by rw [h]; rfl))]
          exact hi.opened q t' i' p' h
      · intro q t' i' h
        replace h := upd_eq h; rcases h with ⟨-, h⟩ | ⟨hq, h⟩
        · simp at h
        · simp only [hother t' (hmine q t' hq (by rw [h]; rfl))]
          exact hi.closed q t' i' h
      · intro q t' h
        obtain ⟨hq, h⟩ := hname q t' h
        simp only [hother t' (hmine q t' hq h)]
        exact hi.named q t' h
      · intro a b t' ha hb
        exact hi.apart a b t' (hname a t' ha).2 (hname b t' hb).2
      · intro t' h
        simp only [] at h
        have hne : t' ≠ t := by rintro rfl; rw [upd_same] at h; simp at h
        rw [hother t' hne] at h
        obtain ⟨q, hq⟩ := hi.owner t' h
        refine ⟨q, ?_⟩
        simp only []
        rw [upd_ne _ _ (by rintro rfl; rw [hp] at hq; exact hne (Option.some.inj hq).symm)]
        exact hq
      · intro c j h
        obtain ⟨q, h3, h4⟩ := hi.check c j (hdir _ _ h).2
        refine ⟨q, h3, ?_⟩
        intro r t' p hr
        replace hr := upd_eq hr; rcases hr with ⟨-, hr⟩ | ⟨-, hr⟩
        · simp at hr
        · exact h4 r t' p hr
      · intro q hq
        have hqo : q ≠ o := by
          rintro rfl
          have := hi.sealed q hq
          rw [hp] at this
          simp at this
        simp only [upd_ne _ _ hqo]
        exact hi.sealed q hq
      · have := hi.spec
        simp only [contents, expected] at this ⊢
        rw [upd_ne _ _ (by simp)]
        exact this
    · simp at h
  | unlinkFail o =>
    simp only [step] at h
    split at h
    · rename_i t hp
      simp only [Option.some.injEq] at h; subst h
      apply inv_pc hi o _ (by rw [hp]; rfl) (by simp) (by simp)
      intro ho
      have := hi.sealed o ho
      rw [hp] at this
      simp at this
    · simp at h
  | crash o =>
    simp only [step] at h
    simp only [Option.some.injEq] at h; subst h
    exact inv_pc hi o _ rfl (by simp) (by simp) (fun _ => .inr ⟨_, rfl⟩)

theorem run_inv' {old : Option (List Byte)} {length : Nat} (es : List Event) : ∀ {s s' : State}, Inv old s → Blank s →
    run length s es = some s' → Inv old s' ∧ Blank s' := by
  induction es with
  | nil =>
    intro s s' hi hb h
    simp only [run, Option.some.injEq] at h
    subst h
    exact ⟨hi, hb⟩
  | cons e es ih =>
    intro s s' hi hb h
    simp only [run, Option.bind_eq_some_iff] at h
    obtain ⟨s1, h1, h2⟩ := h
    exact ih (step_inv hi hb e h1) (step_blank hb e h1) h2

theorem run_inv {old : Option (List Byte)} {length : Nat} {es : List Event} {s : State}
    (h : run length (start old) es = some s) : Inv old s :=
  (run_inv' es (inv_start old) (fun _ _ => rfl) h).1

/-- The file is not open for writing. -/
def Sealed (i : Nat) (s : State) : Prop := i < s.next ∧ ∀ o t p, s.pc o ≠ .opened t i p

theorem step_sealed {length i : Nat} {s s' : State} (hs : Sealed i s) (e : Event) (h : step length s e = some s') :
    Sealed i s' ∧ s'.data i = s.data i := by
  obtain ⟨h1, h2⟩ := hs
  have pcs : ∀ (o : Nat) (c : Pc), (∀ t p, c ≠ .opened t i p) → ∀ q t p, upd s.pc o c q ≠ .opened t i p := by
    intro o c hc q t p hq
    rcases upd_eq hq with ⟨-, h⟩ | ⟨-, h⟩
    · exact hc t p h
    · exact h2 q t p h
  have ne : ∀ {o t j p}, s.pc o = .opened t j p → i ≠ j := by
    rintro o t j p hp rfl
    exact h2 o t p hp
  cases e with
  | create o t =>
    simp only [step] at h
    split at h <;> simp only [Option.some.injEq, reduceCtorEq] at h
    subst h
    refine ⟨⟨by simp only [mkstemp]; omega, pcs o _ ?_⟩, by simp only [mkstemp]; rw [upd_ne _ _ (by omega)]⟩
    intro t' p h
    have := (Pc.opened.inj h).2.1
    omega
  | createFail o =>
    simp only [step] at h
    split at h <;> simp only [Option.some.injEq, reduceCtorEq] at h
    subst h
    exact ⟨⟨h1, pcs o _ (by simp)⟩, rfl⟩
  | createLeak o t =>
    simp only [step] at h
    split at h <;> simp only [Option.some.injEq, reduceCtorEq] at h
    subst h
    exact ⟨⟨by simp only [mkstemp]; omega, pcs o _ (by simp)⟩, by simp only [mkstemp]; rw [upd_ne _ _ (by omega)]⟩
  | write o bs =>
    simp only [step] at h
    split at h <;> simp only [Option.some.injEq, reduceCtorEq] at h
    rename_i hp
    subst h
    exact ⟨⟨h1, pcs o _ (by intro t p h; exact ne hp (Pc.opened.inj h).2.1.symm)⟩, rfl⟩
  | flush o n =>
    simp only [step] at h
    split at h <;> simp only [Option.some.injEq, reduceCtorEq] at h
    rename_i hp
    subst h
    exact ⟨⟨h1, pcs o _ (by intro t p h; exact ne hp (Pc.opened.inj h).2.1.symm)⟩, by simp only []; rw [upd_ne _ _ (ne hp)]⟩
  | checkpoint o c =>
    simp only [step] at h
    split at h
    · split at h <;> simp only [Option.some.injEq, reduceCtorEq] at h
      subst h
      exact ⟨⟨h1, h2⟩, rfl⟩
    · simp at h
  | commit o =>
    simp only [step] at h
    split at h
    · rename_i hp
      split at h <;> simp only [Option.some.injEq] at h <;> subst h
      · exact ⟨⟨h1, pcs o _ (by simp)⟩, by simp only []; rw [upd_ne _ _ (ne hp)]⟩
      · exact ⟨⟨h1, h2⟩, rfl⟩
    · simp at h
  | fcloseFail o n =>
    simp only [step] at h
    split at h <;> simp only [Option.some.injEq, reduceCtorEq] at h
    rename_i hp
    subst h
    exact ⟨⟨h1, pcs o _ (by simp)⟩, by simp only []; rw [upd_ne _ _ (ne hp)]⟩
  | rename o =>
    simp only [step] at h
    split at h <;> simp only [Option.some.injEq, reduceCtorEq] at h
    subst h
    exact ⟨⟨h1, pcs o _ (by simp)⟩, rfl⟩
  | renameFail o =>
    simp only [step] at h
    split at h <;> simp only [Option.some.injEq, reduceCtorEq] at h
    subst h
    exact ⟨⟨h1, pcs o _ (by simp)⟩, rfl⟩
  | discard o =>
    simp only [step] at h
    split at h <;> simp only [Option.some.injEq, reduceCtorEq] at h
    rename_i hp
    subst h
    exact ⟨⟨h1, pcs o _ (by simp)⟩, by simp only []; rw [upd_ne _ _ (ne hp)]⟩
  | unlink o =>
    simp only [step] at h
    split at h <;> simp only [Option.some.injEq, reduceCtorEq] at h
    subst h
    exact ⟨⟨h1, pcs o _ (by simp)⟩, rfl⟩
  | unlinkFail o =>
    simp only [step] at h
    split at h <;> simp only [Option.some.injEq, reduceCtorEq] at h
    subst h
    exact ⟨⟨h1, pcs o _ (by simp)⟩, rfl⟩
  | crash o =>
    simp only [step, Option.some.injEq] at h
    subst h
    exact ⟨⟨h1, pcs o _ (by simp)⟩, rfl⟩

end Diminuto.Observation
