import Verif.PintoolLemmas2

/-!
# Lemmas: the monitors of the tool that manipulates pins
-/

namespace Diminuto.Pintool

variable {σ : Type} (a : Api σ)

theorem printed_append (x y : List Act) : printed (x ++ y) = printed x ++ printed y := List.filterMap_append
theorem ran_append (x y : List Act) : ran (x ++ y) = ran x ++ ran y := List.filterMap_append
theorem samples_append (x y : List Act) : samples (x ++ y) = samples x ++ samples y := by
  rw [samples, got, List.filterMap_append, List.filter_append]; rfl

theorem leads_stop {c : Nat} {t s' : State σ} (h : Leads (.stop c t) s') : t = s' := by
  rcases h with h | ⟨_, h⟩ | h
  · cases h
  · injection h
  · cases h

theorem leads_busy {t s' : State σ} (h : Leads (.busy t) s') : t = s' := by
  rcases h with h | ⟨_, h⟩ | h
  · cases h
  · cases h
  · injection h

/-- A sample either fails, or is passed on. -/
theorem sample_cases (h : Nat) (s : State σ) (rest : Bool → State σ → Flow σ) :
    (∃ v k, v < 0 ∧ sample a h s rest = .stop 2 { s with kernel := k, log := s.log ++ [.got h v] }) ∨
    (∃ v k, 0 ≤ v ∧ sample a h s rest = rest (Cue.level v) { s with kernel := k, log := s.log ++ [.got h v] }) := by
  unfold sample
  rcases a.get h s.kernel with ⟨v, k⟩
  by_cases hv : v < 0
  · exact Or.inl ⟨v, k, hv, by simp only [if_pos hv]⟩
  · refine Or.inr ⟨v, k, by omega, ?_⟩
    simp only [if_neg hv]
    rw [show (v != 0) = Cue.level v by rw [Cue.level]; by_cases q : v = 0 <;> simp [q]]

theorem history_snoc (v0 v : Int) (past : List Int) : Cue.history v0 (past ++ [v]) = Cue.level v :: Cue.history v0 past := by
  simp [Cue.history]

theorem tracks_settled {cue : Cue.State} {v0 : Int} {past : List Int} (h : Cue.Tracks cue (Cue.history v0 past)) : settled v0 past = cue.r := by
  obtain ⟨_, _, h⟩ := h
  rw [settled, h]; rfl

/-- The loop of `-b` prints what is to be reported. -/
theorem polling_reports (h : Nat) (t : BitVec 64) (v0 : Int) : ∀ (n : Nat) (cue : Cue.State) (s s' : State σ) (past : List Int), Cue.Tracks cue (Cue.history v0 past) → s.state = cue.r →
    Leads (polling a h t n cue s) s' →
    ∃ acts, s'.log = s.log ++ acts ∧ printed acts = (reported true (some s.state) (debounced v0 past (samples acts))).map (·.1) ∧ ran acts = [] ∧
      (polling a h t n cue s = .busy s' → (samples acts).length = n) ∧ polling a h t n cue s ≠ .next s' ∧ Paced t acts := by
  intro n
  induction n with
  | zero =>
    intro cue s s' past _ _ h
    rw [polling] at h ⊢
    rw [← leads_busy h]
    exact ⟨[], by simp, rfl, rfl, fun _ => rfl, fun h => (by cases h), trivial⟩
  | succ n ih =>
    intro cue s s' past ht hs hl
    rw [polling] at hl ⊢
    rcases sample_cases a h { s with kernel := a.delay t s.kernel, log := s.log ++ [.slept t] } (fun b s' =>
      let cue := Cue.debounce cue (if b then 1 else 0)
      if cue.r ≠ s.state then polling a h t n cue (print cue.r s') else polling a h t n cue { s' with state := cue.r }) with ⟨v, k, hv, e⟩ | ⟨v, k, hv, e⟩
    · rw [e] at hl ⊢
      rw [← leads_stop hl]
      have : samples [.slept t, .got h v] = [] := by simp [samples, got]; omega
      refine ⟨[.slept t, .got h v], by simp, ?_, rfl, fun h => (by cases h), fun h => (by cases h), rfl, trivial⟩
      rw [this]; rfl
    · rw [e] at hl ⊢
      simp only [] at hl ⊢
      have hlev : Cue.level (if Cue.level v = true then 1 else 0) = Cue.level v := by
        cases Cue.level v <;> rfl
      have ht' : Cue.Tracks (Cue.debounce cue (if Cue.level v = true then 1 else 0)) (Cue.history v0 (past ++ [v])) := by
        rw [history_snoc, ← hlev]
        rw [hlev]
        have := Cue.tracks_step cue _ (if Cue.level v = true then 1 else 0) ht
        rw [hlev] at this
        exact this
      generalize Cue.debounce cue (if Cue.level v = true then 1 else 0) = cue' at hl ht' ⊢
      have hset := tracks_settled ht'
      have hsam : samples [.got h v] = [v] := by simp [samples, got, hv]
      by_cases hq : cue'.r ≠ s.state
      · rw [if_pos hq] at hl ⊢
        obtain ⟨acts, g1, g2, g3, g4, g5, g6⟩ := ih cue' (print cue'.r { s with kernel := k, log := s.log ++ [.slept t] ++ [.got h v] }) s' _ ht' rfl hl
        refine ⟨[.slept t, .got h v, .printed cue'.r] ++ acts, by rw [g1]; simp [print], ?_, by rw [ran_append, g3]; rfl, fun hb => ?_, g5, by exact ⟨rfl, g6⟩⟩
        · rw [printed_append, g2, samples_append, show samples [.slept t, .got h v, .printed cue'.r] = [v] from hsam, List.cons_append, List.nil_append, debounced, reported, hset,
            if_neg (by simp only [Option.some.injEq]; intro q; exact hq q.2.symm)]
          rfl
        · rw [samples_append, show samples [.slept t, .got h v, .printed cue'.r] = [v] from hsam, List.length_append, g4 hb]; simp; omega
      · rw [if_neg hq] at hl ⊢
        obtain ⟨acts, g1, g2, g3, g4, g5, g6⟩ := ih cue' { s with kernel := k, log := s.log ++ [.slept t] ++ [.got h v], state := cue'.r } s' _ ht' rfl hl
        have hq' : cue'.r = s.state := Classical.byContradiction hq
        refine ⟨[.slept t, .got h v] ++ acts, by rw [g1]; simp, ?_, by rw [ran_append, g3]; rfl, fun hb => ?_, g5, by exact ⟨rfl, g6⟩⟩
        · rw [printed_append, g2, samples_append, show samples [.slept t, .got h v] = [v] from hsam, List.cons_append, List.nil_append, debounced, reported, hset, if_pos ⟨rfl, by rw [hq']⟩]
          rfl
        · rw [samples_append, show samples [.slept t, .got h v] = [v] from hsam, List.length_append, g4 hb]; simp; omega

/-- `-b`. -/
theorem poll_reports (h : Nat) (t : BitVec 64) (patience : Nat) (s s' : State σ) (hl : Leads (poll a patience t h s) s') :
    ∃ acts, s'.log = s.log ++ acts ∧ ran acts = [] ∧ poll a patience t h s ≠ .next s' ∧
      (match samples acts with
        | [] => printed acts = []
        | v :: r => printed acts = (reported true none (Cue.level v :: debounced v [] r)).map (·.1)) ∧
      (poll a patience t h s = .busy s' → (samples acts).length = patience + 1) ∧ Paced t (later acts) := by
  rw [poll] at hl ⊢
  rcases sample_cases a h s (fun b s => polling a h t patience (Cue.init (if b then 1 else 0)) (print b s)) with ⟨v, k, hv, e⟩ | ⟨v, k, hv, e⟩
  · rw [e] at hl ⊢
    rw [← leads_stop hl]
    have : samples [.got h v] = [] := by simp [samples, got]; omega
    refine ⟨[.got h v], rfl, rfl, fun h => (by cases h), ?_, fun h => (by cases h), trivial⟩
    rw [this]; rfl
  · rw [e] at hl ⊢
    have hlev : Cue.level (if Cue.level v = true then 1 else 0) = Cue.level v := by
      cases Cue.level v <;> rfl
    have ht : Cue.Tracks (Cue.init (if Cue.level v = true then 1 else 0)) (Cue.history v []) := by
      have := Cue.tracks_init (if Cue.level v = true then 1 else 0)
      simpa [Cue.history, hlev] using this
    have hs : Cue.level v = (Cue.init (if Cue.level v = true then 1 else 0)).r := by
      rw [Cue.init]; simp only []; rw [Cue.norm_level, hlev]
    obtain ⟨acts, g1, g2, g3, g4, g5, g6⟩ := polling_reports a h t v patience _ (print (Cue.level v) { s with kernel := k, log := s.log ++ [.got h v] }) s' [] ht hs hl
    have hsam : samples [.got h v, .printed (Cue.level v)] = [v] := by simp [samples, got, hv]
    refine ⟨[.got h v, .printed (Cue.level v)] ++ acts, by rw [g1]; simp [print], by rw [ran_append, g3]; rfl, g5, ?_, fun hb => ?_, by exact g6⟩
    · rw [samples_append, hsam]
      simp only [List.cons_append, List.nil_append]
      rw [show (Act.got h v :: Act.printed (Cue.level v) :: acts) = [.got h v, .printed (Cue.level v)] ++ acts from rfl, printed_append, g2, reported, if_neg (by simp)]
      rfl
    · rw [samples_append, hsam, List.length_append, g4 hb]; simp; omega

/-- The texts are those that are asked for, if they fit. -/
theorem commandLine_fits (text : List Byte) (pin : Int) (x : Bool × Option Bool) (h : (invocation text pin x).length ≤ 1023) : commandLine text pin x.1 x.2 = invocation text pin x := by
  have he : commandLine text pin x.1 x.2 = (invocation text pin x).take 1023 := by
    obtain ⟨b, _ | p⟩ := x
    · cases b <;> rfl
    · cases b <;> cases p <;> rfl
  rw [he, List.take_of_length_le h]

/-- What a monitor has done with what it has to report. -/
def Does (s : State σ) (acts : List Act) (r : List (Bool × Option Bool)) : Prop :=
  (s.command = none → printed acts = r.map (·.1) ∧ ran acts = []) ∧
  (∀ text, s.command = some text → printed acts = [] ∧ ran acts = r.map fun x => commandLine text s.pin x.1 x.2)

/-- A monitor goes on, or has failed to run a command. -/
theorem notice_cases (b : Bool) (prior : Option Bool) (s : State σ) (rest : State σ → Flow σ) :
    ∃ acts k st, samples acts = [] ∧ (∀ t more, Awaits t (acts ++ more) ↔ Awaits t more) ∧ Does s acts (reported s.unique prior [b]) ∧
      (notice a b prior s rest = rest { s with state := st, kernel := k, log := s.log ++ acts } ∨ notice a b prior s rest = .stop 2 { s with state := st, kernel := k, log := s.log ++ acts }) := by
  unfold notice
  by_cases hq : s.unique = true ∧ prior = some b
  · refine ⟨[], s.kernel, b, rfl, fun _ _ => Iff.rfl, ?_, Or.inl (by rw [if_pos hq, List.append_nil])⟩
    rw [reported, if_pos hq]
    exact ⟨fun _ => ⟨rfl, rfl⟩, fun _ _ => ⟨rfl, rfl⟩⟩
  · cases hc : s.command with
    | none =>
      refine ⟨[.printed b], s.kernel, b, rfl, fun _ _ => Iff.rfl, ?_, Or.inl ?_⟩
      · rw [reported, if_neg hq]
        exact ⟨fun _ => ⟨rfl, rfl⟩, fun _ h => by rw [hc] at h; cases h⟩
      · rw [if_neg hq]; simp only [print, hc]
    | some text =>
      refine ⟨[.ran (commandLine text s.pin b prior) (a.system (commandLine text s.pin b prior) s.kernel).1], (a.system (commandLine text s.pin b prior) s.kernel).2, b, rfl, fun _ _ => Iff.rfl, ?_, ?_⟩
      · rw [reported, if_neg hq]
        refine ⟨fun h => (by rw [hc] at h; cases h), fun t h => ?_⟩
        rw [hc] at h; injection h with h; subst h
        exact ⟨rfl, rfl⟩
      · rw [if_neg hq]
        simp only [hc]
        by_cases hok : (a.system (commandLine text s.pin b prior) s.kernel).1 = true
        · rw [if_pos hok]; exact Or.inl rfl
        · rw [if_neg hok]; exact Or.inr rfl

theorem reported_cons (unique : Bool) (prior : Option Bool) (b : Bool) (r : List Bool) : reported unique prior (b :: r) = reported unique prior [b] ++ reported unique (some b) r := by
  simp only [reported]
  by_cases h : unique = true ∧ prior = some b
  · rw [if_pos h, if_pos h]; rfl
  · rw [if_neg h, if_neg h]; rfl

theorem Does.append {s s1 : State σ} {x y : List Act} {p q : List (Bool × Option Bool)} (h : Does s x p) (h' : Does s1 y q) (hc : s1.command = s.command) (hp : s1.pin = s.pin) : Does s (x ++ y) (p ++ q) := by
  rw [Does, hc, hp] at h'
  refine ⟨fun e => ?_, fun t e => ?_⟩
  · rw [printed_append, ran_append, (h.1 e).1, (h.1 e).2, (h'.1 e).1, (h'.1 e).2, List.map_append]; exact ⟨rfl, rfl⟩
  · rw [printed_append, ran_append, (h.2 t e).1, (h.2 t e).2, (h'.2 t e).1, (h'.2 t e).2, List.map_append]; exact ⟨rfl, rfl⟩

/-- The loop of `-m` and `-M`. -/
theorem watching_reports (h : Nat) : ∀ (n : Nat) (prior : Option Bool) (s s' : State σ), Leads (watching a h n prior s) s' →
    ∃ acts, s'.log = s.log ++ acts ∧ Does s acts (reported s.unique prior ((samples acts).map Cue.level)) ∧ (watching a h n prior s = .busy s' → (samples acts).length = n) ∧
      watching a h n prior s ≠ .next s' ∧ Awaits s.sticks acts := by
  intro n
  induction n with
  | zero =>
    intro prior s s' h
    rw [watching] at h ⊢
    rw [← leads_busy h]
    exact ⟨[], by simp, ⟨fun _ => ⟨rfl, rfl⟩, fun _ _ => ⟨rfl, rfl⟩⟩, fun _ => rfl, fun h => (by cases h), trivial⟩
  | succ n ih =>
    intro prior s s' hl
    rw [watching] at hl ⊢
    rcases hw : a.wait h s.sticks s.kernel with ⟨_ | ready, k⟩
    · rw [hw] at hl
      simp only [] at hl ⊢
      rw [← leads_stop hl]
      exact ⟨[.waited h s.sticks false], rfl, ⟨fun _ => ⟨rfl, rfl⟩, fun _ _ => ⟨rfl, rfl⟩⟩, fun h => (by cases h), fun h => (by cases h), rfl, trivial⟩
    · rw [hw] at hl
      simp only [Option.isSome_some] at hl ⊢
      rcases sample_cases a h { s with kernel := k, log := s.log ++ [.waited h s.sticks true] } (fun b s => notice a b prior s (watching a h n (some b))) with ⟨v, k, hv, e⟩ | ⟨v, k, hv, e⟩
      · rw [e] at hl ⊢
        rw [← leads_stop hl]
        have : samples [.waited h s.sticks true, .got h v] = [] := by simp [samples, got]; omega
        refine ⟨[.waited h s.sticks true, .got h v], by simp, ?_, fun h => (by cases h), fun h => (by cases h), rfl, trivial⟩
        rw [this]
        exact ⟨fun _ => ⟨rfl, rfl⟩, fun _ _ => ⟨rfl, rfl⟩⟩
      · rw [e] at hl ⊢
        have hsam : samples [.waited h s.sticks true, .got h v] = [v] := by simp [samples, got, hv]
        have hnone : ∀ s0 : State σ, Does s0 [.waited h s.sticks true, .got h v] [] := fun s0 => ⟨fun _ => ⟨rfl, rfl⟩, fun _ _ => ⟨rfl, rfl⟩⟩
        obtain ⟨acts, k2, st, q1, q2, q3, q4⟩ := notice_cases a (Cue.level v) prior { s with kernel := k, log := s.log ++ [.waited h s.sticks true] ++ [.got h v] } (watching a h n (some (Cue.level v)))
        have q2' : Does s ([.waited h s.sticks true, .got h v] ++ acts) (reported s.unique prior [Cue.level v]) := (hnone s).append q3 rfl rfl
        rcases q4 with q3 | q3
        · rw [q3] at hl ⊢
          obtain ⟨more, g1, g2, g3, g4, g5⟩ := ih (some (Cue.level v)) _ s' hl
          refine ⟨[.waited h s.sticks true, .got h v] ++ acts ++ more, by rw [g1]; simp, ?_, fun hb => ?_, g4, ?_⟩
          · rw [samples_append, samples_append, hsam, q1]
            simp only [List.append_nil, List.cons_append, List.nil_append, List.map_cons]
            rw [reported_cons]
            exact q2'.append g2 rfl rfl
          · rw [samples_append, samples_append, hsam, q1, List.length_append, g3 hb]; simp; omega
          · rw [List.append_assoc]
            exact ⟨rfl, (q2 _ _).2 g5⟩
        · rw [q3] at hl ⊢
          rw [← leads_stop hl]
          refine ⟨[.waited h s.sticks true, .got h v] ++ acts, by simp, ?_, fun h => (by cases h), fun h => (by cases h), ?_⟩
          · rw [samples_append, hsam, q1]
            exact q2'
          · have := (q2 s.sticks []).2 trivial
            rw [List.append_nil] at this
            exact ⟨rfl, this⟩

/-- `-m` and `-M`. -/
theorem watch_reports (patience h : Nat) (s s' : State σ) (hl : Leads (watch a patience h s) s') :
    ∃ acts, s'.log = s.log ++ acts ∧ watch a patience h s ≠ .next s' ∧
      (let levels := (samples acts).map Cue.level
       (s.command = none → printed acts = initial s.first levels ++ (following s.first s.unique levels).map (·.1) ∧ ran acts = []) ∧
       (∀ text, s.command = some text → printed acts = initial s.first levels ∧ ran acts = (following s.first s.unique levels).map fun x => commandLine text s.pin x.1 x.2)) ∧
      (watch a patience h s = .busy s' → (samples acts).length = patience + if s.first then 1 else 0) ∧ Awaits s.sticks (if s.first then later acts else acts) := by
  rw [watch] at hl ⊢
  cases hf : s.first with
  | false =>
    rw [hf] at hl
    rw [if_neg (by simp)] at hl ⊢
    obtain ⟨acts, g1, g2, g3, g4, g5⟩ := watching_reports a h patience none s s' hl
    refine ⟨acts, g1, g4, ?_, fun hb => (by rw [g3 hb]; simp), by simpa using g5⟩
    simp only [initial, following, Bool.false_eq_true, if_false, List.nil_append]
    exact g2
  | true =>
    rw [hf] at hl
    rw [if_pos rfl] at hl ⊢
    rcases sample_cases a h s (fun b s => watching a h patience (some b) (print b s)) with ⟨v, k, hv, e⟩ | ⟨v, k, hv, e⟩
    · rw [e] at hl ⊢
      rw [← leads_stop hl]
      have : samples [.got h v] = [] := by simp [samples, got]; omega
      refine ⟨[.got h v], rfl, fun h => (by cases h), ?_, fun h => (by cases h), trivial⟩
      rw [this]
      exact ⟨fun _ => ⟨rfl, rfl⟩, fun _ _ => ⟨rfl, rfl⟩⟩
    · rw [e] at hl ⊢
      obtain ⟨acts, g1, g2, g3, g4, g5⟩ := watching_reports a h patience (some (Cue.level v)) _ s' hl
      have hsam : samples [.got h v, .printed (Cue.level v)] = [v] := by simp [samples, got, hv]
      refine ⟨[.got h v, .printed (Cue.level v)] ++ acts, by rw [g1]; simp [print], g4, ?_, fun hb => ?_, by exact g5⟩
      · rw [samples_append, hsam]
        simp only [List.cons_append, List.nil_append, List.map_cons, initial, following, if_true, List.take_succ_cons, List.take_zero, List.head?_cons, List.tail_cons]
        refine ⟨fun hc => ?_, fun t hc => ?_⟩
        · rw [show (Act.got h v :: Act.printed (Cue.level v) :: acts) = [.got h v, .printed (Cue.level v)] ++ acts from rfl, printed_append, ran_append, (g2.1 hc).1, (g2.1 hc).2]
          exact ⟨rfl, rfl⟩
        · rw [show (Act.got h v :: Act.printed (Cue.level v) :: acts) = [.got h v, .printed (Cue.level v)] ++ acts from rfl, printed_append, ran_append, (g2.2 t hc).1, (g2.2 t hc).2]
          exact ⟨rfl, rfl⟩
      · rw [samples_append, hsam, List.length_append, g3 hb]; simp; omega

end Diminuto.Pintool
