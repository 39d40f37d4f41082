import Verif.LinetoolLemmas2
import Verif.PintoolLemmas3

/-!
# Lemmas: the monitors of the tool that manipulates lines
-/

namespace Diminuto.Linetool

open Diminuto.Pintool (reported debounced settled history_snoc tracks_settled reported_cons)

variable {σ : Type} (a : Api σ)

theorem printed_append (x y : List Act) : printed (x ++ y) = printed x ++ printed y := List.filterMap_append
theorem ran_append (x y : List Act) : ran (x ++ y) = ran x ++ ran y := List.filterMap_append
theorem samples_append (x y : List Act) : samples (x ++ y) = samples x ++ samples y := List.filterMap_append
theorem edges_append (x y : List Act) : edges (x ++ y) = edges x ++ edges y := List.filterMap_append
theorem waits_append (x y : List Act) : waits (x ++ y) = waits x + waits y := List.countP_append

theorem after_quiet {x : List Act} (h : Act.flushed true ∉ x) (y : List Act) : after (x ++ y) = after y := by
  induction x with
  | nil => rfl
  | cons e x ih =>
    have h1 : Act.flushed true ∉ x := fun q => h (List.mem_cons_of_mem _ q)
    have h2 : e ≠ .flushed true := fun q => h (by rw [q]; simp)
    rw [List.cons_append]
    cases e with
    | flushed b =>
      cases b with
      | true => exact absurd rfl h2
      | false => exact ih h1
    | _ => exact ih h1

theorem leads_stop {c : Nat} {t s' : State σ} (h : Leads (.stop c t) s') : t = s' := by
  rcases h with h | ⟨_, h⟩ | h
  · cases h
  · injection h
  · cases h

theorem leads_busy {t s' : State σ} (h : Leads (.busy t) s') : t = s' := by
  rcases h with h | ⟨_, h⟩ | h
  · cases h
  · cases h
  · injection h

theorem leads_next {t s' : State σ} (h : Leads (.next t) s') : t = s' := by
  rcases h with h | ⟨_, h⟩ | h
  · injection h
  · cases h
  · cases h

/-- A sample either fails, or is passed on. -/
theorem sample_cases (h : Nat) (s : State σ) (rest : Bool → State σ → Flow σ) :
    (∃ k, sample a h s rest = .stop 2 { s with kernel := k, log := s.log ++ [.got h none] }) ∨
    (∃ b k, sample a h s rest = rest b { s with kernel := k, log := s.log ++ [.got h (some b)] }) := by
  unfold sample
  rcases a.get h s.kernel with ⟨_ | b, k⟩
  · exact Or.inl ⟨k, rfl⟩
  · exact Or.inr ⟨b, k, rfl⟩

theorem level_number (b : Bool) : Cue.level (if b = true then 1 else 0) = b := by cases b <;> rfl

/-- The number of a level. -/
abbrev num (b : Bool) : Int := if b = true then 1 else 0

/-- The loop of `-b` prints what is to be reported. -/
theorem polling_reports (h : Nat) (t : BitVec 64) (v0 : Int) : ∀ (n : Nat) (cue : Cue.State) (s s' : State σ) (past : List Int), Cue.Tracks cue (Cue.history v0 past) → s.state = cue.r →
    Leads (polling a h t n cue s) s' →
    ∃ acts, s'.log = s.log ++ acts ∧ printed acts = (reported true (some s.state) (debounced v0 past (numbers (samples acts)))).map (·.1) ∧ ran acts = [] ∧
      (polling a h t n cue s = .busy s' → (samples acts).length = n) ∧ Paced t acts ∧ Prompt acts ∧ s'.blocked = s.blocked ∧
      (s.caught = true → acts = []) ∧ (s.blocked = true → s.caught = false → polling a h t n cue s ≠ .next s') ∧
      (s.blocked = false → s.caught = false → after acts = [] ∧ (polling a h t n cue s = .next s' → ∃ x, acts = x ++ [.flushed true])) := by
  intro n
  induction n with
  | zero =>
    intro cue s s' past _ _ h
    rw [polling] at h ⊢
    rw [← leads_busy h]
    exact ⟨[], by simp, rfl, rfl, fun _ => rfl, trivial, trivial, rfl, fun _ => rfl, fun _ _ h => (by cases h), fun _ _ => ⟨rfl, fun h => (by cases h)⟩⟩
  | succ n ih =>
    intro cue s s' past ht hs hl
    rw [polling] at hl ⊢
    by_cases hc : s.caught = true
    · rw [if_pos hc] at hl ⊢
      rw [← leads_next hl]
      exact ⟨[], by simp, rfl, rfl, fun h => (by cases h), trivial, trivial, rfl, fun _ => rfl, fun _ q => absurd hc (by simp [q]), fun _ q => absurd hc (by simp [q])⟩
    · rw [if_neg hc] at hl ⊢
      have hcf : s.caught = false := by simpa using hc
      rcases sample_cases a h { s with kernel := a.delay t s.kernel, log := s.log ++ [.slept t] } (fun b s' =>
        let cue := Cue.debounce cue (if b then 1 else 0)
        if cue.r ≠ s.state then polling a h t n cue (flush a (print cue.r s')) else polling a h t n cue { s' with state := cue.r }) with ⟨k, e⟩ | ⟨v, k, e⟩
      · rw [e] at hl ⊢
        rw [← leads_stop hl]
        exact ⟨[.slept t, .got h none], by simp, rfl, rfl, fun h => (by cases h), ⟨rfl, trivial⟩, trivial, rfl, fun q => absurd q hc, fun _ _ h => (by cases h), fun _ _ => ⟨rfl, fun h => (by cases h)⟩⟩
      · rw [e] at hl ⊢
        simp only [] at hl ⊢
        have ht' : Cue.Tracks (Cue.debounce cue (num v)) (Cue.history v0 (past ++ [num v])) := by
          rw [history_snoc]
          exact Cue.tracks_step cue _ (num v) ht
        change Leads (if (Cue.debounce cue (num v)).r ≠ s.state then _ else _) s' at hl
        generalize Cue.debounce cue (num v) = cue' at hl ht' ⊢
        have hset := tracks_settled ht'
        by_cases hq : cue'.r ≠ s.state
        · rw [if_pos hq] at hl ⊢
          obtain ⟨acts, g1, g2, g3, g4, g5, g6, g7, g8, g9, g10⟩ := ih cue' (flush a (print cue'.r { s with kernel := k, log := s.log ++ [.slept t] ++ [.got h (some v)] })) s' _ ht' rfl hl
          simp only [flush, print] at g1 g7 g8 g9 g10
          refine ⟨[.slept t, .got h (some v), .printed cue'.r, .flushed (a.flush k).1] ++ acts, by rw [g1]; simp, ?_, by rw [ran_append, g3]; rfl, fun hb => ?_, by exact ⟨rfl, g5⟩, by exact g6, g7, fun q => absurd q hc, fun hb hx => ?_, fun hb hx => ?_⟩
          · rw [printed_append, g2, samples_append, show samples [.slept t, .got h (some v), .printed cue'.r, .flushed (a.flush k).1] = [v] from rfl, List.cons_append, List.nil_append]
            rw [show numbers (v :: samples acts) = num v :: numbers (samples acts) from rfl, debounced, reported, hset,
              if_neg (by simp only [Option.some.injEq]; intro q; exact hq q.2.symm)]
            rfl
          · rw [samples_append, List.length_append, g4 hb]; exact Nat.add_comm _ _
          · refine g9 hb ?_
            rw [hx, hb]; simp
          · cases hf : (a.flush k).1 with
            | true =>
              have := g8 (by rw [hf, hb]; simp)
              rw [this]
              exact ⟨rfl, fun _ => ⟨[.slept t, .got h (some v), .printed cue'.r], rfl⟩⟩
            | false =>
              obtain ⟨q1, q2⟩ := g10 hb (by rw [hx, hf]; rfl)
              refine ⟨by exact q1, fun hn => ?_⟩
              obtain ⟨x, q3⟩ := q2 hn
              exact ⟨[.slept t, .got h (some v), .printed cue'.r, .flushed false] ++ x, by rw [q3]; simp⟩
        · rw [if_neg hq] at hl ⊢
          obtain ⟨acts, g1, g2, g3, g4, g5, g6, g7, g8, g9, g10⟩ := ih cue' { s with kernel := k, log := s.log ++ [.slept t] ++ [.got h (some v)], state := cue'.r } s' _ ht' rfl hl
          have hq' : cue'.r = s.state := Classical.byContradiction hq
          refine ⟨[.slept t, .got h (some v)] ++ acts, by rw [g1]; simp, ?_, by rw [ran_append, g3]; rfl, fun hb => ?_, by exact ⟨rfl, g5⟩, by exact g6, g7, fun q => absurd q hc, fun hb hx => g9 hb hx, fun hb hx => ?_⟩
          · rw [printed_append, g2, samples_append, show samples [.slept t, .got h (some v)] = [v] from rfl, List.cons_append, List.nil_append]
            rw [show numbers (v :: samples acts) = num v :: numbers (samples acts) from rfl, debounced, reported, hset, if_pos ⟨rfl, by rw [hq']⟩]
            rfl
          · rw [samples_append, List.length_append, g4 hb]; exact Nat.add_comm _ _
          · obtain ⟨q1, q2⟩ := g10 hb hx
            refine ⟨by exact q1, fun hn => ?_⟩
            obtain ⟨x, q3⟩ := q2 hn
            exact ⟨[.slept t, .got h (some v)] ++ x, by rw [q3]; simp⟩

/-- `-b`. -/
theorem poll_reports (h : Nat) (t : BitVec 64) (patience : Nat) (s s' : State σ) (hc : s.caught = false) (hl : Leads (poll a patience t h s) s') :
    ∃ acts, s'.log = s.log ++ acts ∧ ran acts = [] ∧
      (match samples acts with
        | [] => printed acts = []
        | v :: r => printed acts = (reported true none (v :: debounced (num v) [] (numbers r))).map (·.1)) ∧
      (poll a patience t h s = .busy s' → (samples acts).length = patience + 1) ∧ Paced t (later acts) ∧ Prompt acts ∧
      (s.blocked = true → poll a patience t h s ≠ .next s') ∧
      (s.blocked = false → after acts = [] ∧ (poll a patience t h s = .next s' → ∃ x, acts = x ++ [.flushed true])) := by
  rw [poll] at hl ⊢
  rcases sample_cases a h s (fun b s => polling a h t patience (Cue.init (if b then 1 else 0)) (flush a (print b s))) with ⟨k, e⟩ | ⟨v, k, e⟩
  · rw [e] at hl ⊢
    rw [← leads_stop hl]
    exact ⟨[.got h none], rfl, rfl, rfl, fun h => (by cases h), trivial, trivial, fun _ h => (by cases h), fun _ => ⟨rfl, fun h => (by cases h)⟩⟩
  · rw [e] at hl ⊢
    have ht : Cue.Tracks (Cue.init (num v)) (Cue.history (num v) []) := by
      have := Cue.tracks_init (num v)
      simpa [Cue.history] using this
    have hs : v = (Cue.init (num v)).r := by
      rw [Cue.init]; simp only []; rw [Cue.norm_level, level_number]
    obtain ⟨acts, g1, g2, g3, g4, g5, g6, g7, g8, g9, g10⟩ := polling_reports a h t (num v) patience _ (flush a (print v { s with kernel := k, log := s.log ++ [.got h (some v)] })) s' [] ht hs hl
    simp only [flush, print] at g1 g2 g7 g8 g9 g10
    refine ⟨[.got h (some v), .printed v, .flushed (a.flush k).1] ++ acts, by rw [g1]; simp, by rw [ran_append, g3]; rfl, ?_, fun hb => ?_, by exact g5, by exact g6, fun hb => ?_, fun hb => ?_⟩
    · rw [samples_append, show samples [.got h (some v), .printed v, .flushed (a.flush k).1] = [v] from rfl, printed_append]
      simp only [List.cons_append, List.nil_append]
      rw [g2, reported, if_neg (by simp)]
      rfl
    · rw [samples_append, List.length_append, g4 hb]; exact Nat.add_comm _ _
    · refine g9 hb ?_
      rw [hc, hb]; simp
    · cases hf : (a.flush k).1 with
      | true =>
        have := g8 (by rw [hf, hb]; simp)
        rw [this]
        exact ⟨rfl, fun _ => ⟨[.got h (some v), .printed v], rfl⟩⟩
      | false =>
        obtain ⟨q1, q2⟩ := g10 hb (by rw [hc, hf]; rfl)
        refine ⟨by exact q1, fun hn => ?_⟩
        obtain ⟨x, q3⟩ := q2 hn
        exact ⟨[.got h (some v), .printed v, .flushed false] ++ x, by rw [q3]; simp⟩

/-- The texts are those that are asked for, if they fit. -/
theorem commandLine_fits (text path : List Byte) (line : BitVec 32) (x : Bool × Option Bool) (h : (invocation text path line x).length ≤ 1023) : commandLine text path line x.1 x.2 = invocation text path line x := by
  have he : commandLine text path line x.1 x.2 = (invocation text path line x).take 1023 := by
    obtain ⟨b, _ | p⟩ := x
    · cases b <;> rfl
    · cases b <;> cases p <;> rfl
  rw [he, List.take_of_length_le h]

/-- What a monitor has done with what it has to report. -/
def Does (s : State σ) (acts : List Act) (r : List (Bool × Option Bool)) : Prop :=
  (s.command = none → printed acts = r.map (·.1) ∧ ran acts = []) ∧
  (∀ text, s.command = some text → printed acts = [] ∧ ∀ path, s.context.path = some path → ran acts = r.map fun x => commandLine text path s.context.line x.1 x.2)

theorem Does.append {s s1 : State σ} {x y : List Act} {p q : List (Bool × Option Bool)} (h : Does s x p) (h' : Does s1 y q) (hc : s1.command = s.command) (hp : s1.context = s.context) : Does s (x ++ y) (p ++ q) := by
  rw [Does, hc, hp] at h'
  refine ⟨fun e => ?_, fun t e => ⟨?_, fun path hp => ?_⟩⟩
  · rw [printed_append, ran_append, (h.1 e).1, (h.1 e).2, (h'.1 e).1, (h'.1 e).2, List.map_append]; exact ⟨rfl, rfl⟩
  · rw [printed_append, (h.2 t e).1, (h'.2 t e).1]; rfl
  · rw [ran_append, (h.2 t e).2 path hp, (h'.2 t e).2 path hp, List.map_append]

/-- A monitor has done nothing yet. -/
theorem does_nothing (s : State σ) {x : List Act} (h1 : printed x = []) (h2 : ran x = []) : Does s x [] := ⟨fun _ => ⟨h1, h2⟩, fun _ _ => ⟨h1, fun _ _ => h2⟩⟩

/-- A monitor goes on, has failed to run a command, or is lost. -/
theorem notice_cases (b : Bool) (prior : Option Bool) (s : State σ) (rest : State σ → Flow σ) (hb : s.blocked = true) :
    notice a b prior s rest = .undefined ∨
    ∃ acts k st p, samples acts = [] ∧ edges acts = [] ∧ waits acts = 0 ∧ (∀ t more, Awaits t (acts ++ more) ↔ Awaits t more) ∧ (∀ more, Prompt (acts ++ more) ↔ Prompt more) ∧ Does s acts (reported s.unique prior [b]) ∧
      ((Act.flushed true ∉ acts ∧ p = s.pending) ∨ (∃ x, acts = x ++ [.flushed true] ∧ Act.flushed true ∉ x ∧ p = true)) ∧
      (notice a b prior s rest = rest { s with state := st, kernel := k, pending := p, log := s.log ++ acts } ∨ notice a b prior s rest = .stop 2 { s with state := st, kernel := k, pending := p, log := s.log ++ acts }) := by
  unfold notice
  by_cases hq : s.unique = true ∧ prior = some b
  · refine Or.inr ⟨[], s.kernel, b, s.pending, rfl, rfl, rfl, fun _ _ => Iff.rfl, fun _ => Iff.rfl, ?_, Or.inl ⟨by simp, rfl⟩, Or.inl (by rw [if_pos hq, List.append_nil])⟩
    rw [reported, if_pos hq]
    exact does_nothing s rfl rfl
  · cases hc : s.command with
    | none =>
      refine Or.inr ⟨[.printed b, .flushed (a.flush s.kernel).1], (a.flush s.kernel).2, b, s.pending || (a.flush s.kernel).1, rfl, rfl, rfl, fun _ _ => Iff.rfl, fun _ => Iff.rfl, ?_, ?_, Or.inl ?_⟩
      · rw [reported, if_neg hq]
        exact ⟨fun _ => ⟨rfl, rfl⟩, fun _ h => by rw [hc] at h; cases h⟩
      · cases (a.flush s.kernel).1 with
        | true => exact Or.inr ⟨[.printed b], rfl, by simp, by simp⟩
        | false => exact Or.inl ⟨by simp, by simp⟩
      · rw [if_neg hq]; simp [print, flush, hc, hb]
    | some text =>
      cases hp : s.context.path with
      | none => exact Or.inl (by rw [if_neg hq])
      | some path =>
        refine Or.inr ⟨[.ran (commandLine text path s.context.line b prior) (a.system (commandLine text path s.context.line b prior) s.kernel).1], (a.system (commandLine text path s.context.line b prior) s.kernel).2, b, s.pending,
          rfl, rfl, rfl, fun _ _ => Iff.rfl, fun _ => Iff.rfl, ?_, Or.inl ⟨by simp, rfl⟩, ?_⟩
        · rw [reported, if_neg hq]
          refine ⟨fun h => (by rw [hc] at h; cases h), fun t h => ⟨rfl, fun path' hp' => ?_⟩⟩
          rw [hc] at h; injection h with h; subst h
          rw [hp] at hp'; injection hp' with hp'; subst hp'
          rfl
        · rw [if_neg hq]
          simp only []
          by_cases hok : (a.system (commandLine text path s.context.line b prior) s.kernel).1 = true
          · rw [if_pos hok]; exact Or.inl rfl
          · rw [if_neg hok]; exact Or.inr rfl

/-- The loop of `-m`. -/
theorem watching_reports (h : Nat) : ∀ (n : Nat) (prior : Option Bool) (s s' : State σ), s.blocked = true → Leads (watching a h n prior s) s' →
    ∃ acts, s'.log = s.log ++ acts ∧ Does s acts (reported s.unique prior (edges acts)) ∧ samples acts = [] ∧ (watching a h n prior s = .busy s' → waits acts = n) ∧
      Awaits s.sticks acts ∧ Prompt acts ∧ (s.caught = true → acts = []) ∧
      (s.caught = false → s.pending = true → (acts = [] ∨ acts = [.waited h s.sticks .interrupted]) ∧ (watching a h n prior s = .next s' → acts = [.waited h s.sticks .interrupted])) ∧
      (s.caught = false → s.pending = false → (after acts = [] ∨ after acts = [.waited h s.sticks .interrupted]) ∧ (watching a h n prior s = .next s' → after acts = [.waited h s.sticks .interrupted])) := by
  intro n
  induction n with
  | zero =>
    intro prior s s' _ hl
    rw [watching] at hl ⊢
    rw [← leads_busy hl]
    exact ⟨[], by simp, does_nothing s rfl rfl, rfl, fun _ => rfl, trivial, trivial, fun _ => rfl, fun _ _ => ⟨Or.inl rfl, fun h => (by cases h)⟩, fun _ _ => ⟨Or.inl rfl, fun h => (by cases h)⟩⟩
  | succ n ih =>
    intro prior s s' hbl hl
    rw [watching] at hl ⊢
    by_cases hc : s.caught = true
    · rw [if_pos hc] at hl ⊢
      rw [← leads_next hl]
      exact ⟨[], by simp, does_nothing s rfl rfl, rfl, fun h => (by cases h), trivial, trivial, fun _ => rfl, fun q _ => absurd hc (by simp [q]), fun q _ => absurd hc (by simp [q])⟩
    · rw [if_neg hc] at hl ⊢
      have hcf : s.caught = false := by simpa using hc
      by_cases hp : s.pending = true
      · have he : await a h s = (.interrupted, { s with pending := false, caught := true, log := s.log ++ [.waited h s.sticks .interrupted] }) := by rw [await, if_pos hp]
        rw [he] at hl ⊢
        simp only [] at hl ⊢
        obtain ⟨acts, g1, _, _, g4, _, _, g7, _⟩ := ih prior { s with pending := false, caught := true, log := s.log ++ [.waited h s.sticks .interrupted] } s' hbl hl
        have := g7 rfl
        subst this
        refine ⟨[.waited h s.sticks .interrupted], by rw [g1]; simp, does_nothing s rfl rfl, rfl, fun hb => ?_, ⟨rfl, trivial⟩, trivial, fun q => absurd q hc, fun _ _ => ⟨Or.inr rfl, fun _ => rfl⟩, fun _ q => absurd hp (by simp [q])⟩
        rw [← g4 hb]; rfl
      · have hpf : s.pending = false := by simpa using hp
        rcases hw : a.wait h s.sticks s.kernel with ⟨r, k⟩
        have he : await a h s = (r, { s with kernel := k, log := s.log ++ [.waited h s.sticks r] }) := by rw [await, if_neg hp, hw]
        rw [he] at hl ⊢
        have hgo : ∀ e : Act, e = .waited h s.sticks .interrupted ∨ e = .waited h s.sticks .timeout → Leads (watching a h n prior { s with kernel := k, log := s.log ++ [e] }) s' →
            ∃ acts, s'.log = s.log ++ acts ∧ Does s acts (reported s.unique prior (edges acts)) ∧ samples acts = [] ∧ (watching a h n prior { s with kernel := k, log := s.log ++ [e] } = .busy s' → waits acts = n + 1) ∧
            Awaits s.sticks acts ∧ Prompt acts ∧ (s.caught = true → acts = []) ∧
            (s.caught = false → s.pending = true → (acts = [] ∨ acts = [.waited h s.sticks .interrupted]) ∧ (watching a h n prior { s with kernel := k, log := s.log ++ [e] } = .next s' → acts = [.waited h s.sticks .interrupted])) ∧
            (s.caught = false → s.pending = false → (after acts = [] ∨ after acts = [.waited h s.sticks .interrupted]) ∧ (watching a h n prior { s with kernel := k, log := s.log ++ [e] } = .next s' → after acts = [.waited h s.sticks .interrupted])) := by
          intro e hee hl
          obtain ⟨acts, g1, g2, g3, g4, g5, g6, _, _, g9⟩ := ih prior _ s' (by exact hbl) hl
          have hd : Does s [e] [] := by rcases hee with rfl | rfl <;> exact does_nothing s rfl rfl
          have hed : edges [e] = [] := by rcases hee with rfl | rfl <;> rfl
          have hsa : samples [e] = [] := by rcases hee with rfl | rfl <;> rfl
          refine ⟨[e] ++ acts, by rw [g1]; simp, ?_, by rw [samples_append, hsa, g3]; rfl, fun hb => ?_, ?_, ?_, fun q => absurd q hc, fun _ q => absurd q hp, fun q1 q2 => ?_⟩
          · rw [edges_append, hed, List.nil_append]
            exact hd.append g2 rfl rfl
          · rw [waits_append, g4 hb]
            rcases hee with rfl | rfl <;> exact Nat.add_comm _ _
          · rcases hee with rfl | rfl <;> exact ⟨rfl, g5⟩
          · rcases hee with rfl | rfl <;> exact g6
          · obtain ⟨x1, x2⟩ := g9 q1 q2
            rcases hee with rfl | rfl <;> exact ⟨x1, x2⟩
        cases r with
        | failed =>
          simp only [] at hl ⊢
          rw [← leads_stop hl]
          exact ⟨[.waited h s.sticks .failed], rfl, does_nothing s rfl rfl, rfl, fun h => (by cases h), ⟨rfl, trivial⟩, trivial, fun q => absurd q hc, fun _ q => absurd q hp, fun _ _ => ⟨Or.inl rfl, fun h => (by cases h)⟩⟩
        | interrupted => exact hgo _ (Or.inl rfl) hl
        | timeout => exact hgo _ (Or.inr rfl) hl
        | ready =>
          simp only [] at hl ⊢
          cases hg : (a.read h k).1 with
          | failed =>
            rw [hg] at hl
            simp only [] at hl ⊢
            rw [← leads_stop hl]
            exact ⟨[.waited h s.sticks .ready, .read h .failed], by simp, does_nothing s rfl rfl, rfl, fun h => (by cases h), ⟨rfl, trivial⟩, trivial, fun q => absurd q hc, fun _ q => absurd q hp, fun _ _ => ⟨Or.inl rfl, fun h => (by cases h)⟩⟩
          | again =>
            rw [hg] at hl
            simp only [] at hl ⊢
            obtain ⟨acts, g1, g2, g3, g4, g5, g6, _, _, g9⟩ := ih prior _ s' (by exact hbl) hl
            refine ⟨[.waited h s.sticks .ready, .read h .again] ++ acts, by rw [g1]; simp, ?_, g3, fun hb => ?_, by exact ⟨rfl, g5⟩, by exact g6, fun q => absurd q hc, fun _ q => absurd q hp, fun q1 q2 => g9 q1 q2⟩
            · rw [edges_append]
              exact (does_nothing s rfl rfl).append g2 rfl rfl
            · rw [waits_append, g4 hb]; exact Nat.add_comm _ _
          | edge b =>
            rw [hg] at hl
            simp only [] at hl ⊢
            rcases notice_cases a b prior { s with kernel := (a.read h k).2, log := s.log ++ [.waited h s.sticks .ready] ++ [.read h (.edge b)] } (watching a h n (some b)) hbl with hu | ⟨acts, k2, st, p, q1, q2, q3, q4, q5, q6, q7, q8⟩
            · rw [hu] at hl
              rcases hl with hl | ⟨_, hl⟩ | hl <;> cases hl
            · have q6' : Does s ([.waited h s.sticks .ready, .read h (.edge b)] ++ acts) (reported s.unique prior [b]) := (does_nothing s rfl rfl).append q6 rfl rfl
              rcases q8 with q8 | q8
              · rw [q8] at hl ⊢
                obtain ⟨more, g1, g2, g3, g4, g5, g6, g7, g8, g9⟩ := ih (some b) _ s' (by exact hbl) hl
                refine ⟨[.waited h s.sticks .ready, .read h (.edge b)] ++ acts ++ more, by rw [g1]; simp, ?_, ?_, fun hb => ?_, ?_, ?_, fun q => absurd q hc, fun _ q => absurd q hp, fun _ _ => ?_⟩
                · rw [edges_append, edges_append, q2, show edges [.waited h s.sticks .ready, .read h (.edge b)] = [b] from rfl]
                  simp only [List.append_nil, List.cons_append, List.nil_append]
                  rw [reported_cons]
                  exact q6'.append g2 rfl rfl
                · rw [samples_append, samples_append, q1, g3]; rfl
                · rw [waits_append, waits_append, q3, g4 hb]; exact Nat.add_comm _ _
                · rw [List.append_assoc]
                  exact ⟨rfl, (q4 _ _).2 g5⟩
                · rw [List.append_assoc]
                  exact (q5 _).2 g6
                · rw [List.append_assoc, show after ([.waited h s.sticks .ready, .read h (.edge b)] ++ (acts ++ more)) = after (acts ++ more) from rfl]
                  rcases q7 with ⟨w1, w2⟩ | ⟨x, w1, w2, w3⟩
                  · rw [after_quiet w1]
                    exact g9 hcf (by rw [w2]; exact hpf)
                  · have hx : after (acts ++ more) = more := by rw [w1, List.append_assoc, after_quiet w2]; rfl
                    rw [hx]
                    exact g8 hcf w3
              · rw [q8] at hl ⊢
                rw [← leads_stop hl]
                refine ⟨[.waited h s.sticks .ready, .read h (.edge b)] ++ acts, by simp, ?_, by rw [samples_append, q1]; rfl, fun h => (by cases h), ?_, ?_, fun q => absurd q hc, fun _ q => absurd q hp, fun _ _ => ⟨Or.inl ?_, fun h => (by cases h)⟩⟩
                · rw [edges_append, q2]
                  exact q6'
                · have := (q4 s.sticks []).2 trivial
                  rw [List.append_nil] at this
                  exact ⟨rfl, this⟩
                · have := (q5 []).2 trivial
                  rw [List.append_nil] at this
                  exact this
                · rw [show after ([.waited h s.sticks .ready, .read h (.edge b)] ++ acts) = after acts from rfl]
                  rcases q7 with ⟨w1, _⟩ | ⟨x, w1, w2, _⟩
                  · have := after_quiet w1 []
                    rw [List.append_nil] at this
                    exact this
                  · rw [w1, after_quiet w2]; rfl

/-- `-m`. -/
theorem watch_reports (patience h : Nat) (s s' : State σ) (hc : s.caught = false) (hp : s.pending = false) (hl : Leads (watch a patience h s) s') :
    ∃ acts, s'.log = s.log ++ acts ∧
      (s.command = none → printed acts = samples acts ++ (reported s.unique (samples acts).head? (edges acts)).map (·.1) ∧ ran acts = []) ∧
      (∀ text, s.command = some text → printed acts = samples acts ∧ ∀ path, s.context.path = some path → ran acts = (reported s.unique (samples acts).head? (edges acts)).map fun x => commandLine text path s.context.line x.1 x.2) ∧
      (watch a patience h s = .busy s' → waits acts = patience) ∧ (s.first = false → samples acts = []) ∧ (s.first = true → edges acts ≠ [] ∨ watch a patience h s = .busy s' → (samples acts).length = 1) ∧ (samples acts).length ≤ 1 ∧
      Awaits s.sticks acts ∧ Prompt acts ∧
      (after acts = [] ∨ after acts = [.waited h s.sticks .interrupted]) ∧ (watch a patience h s = .next s' → after acts = [.waited h s.sticks .interrupted]) := by
  rw [watch] at hl ⊢
  simp only [] at hl ⊢
  cases hf : s.first with
  | false =>
    rw [hf] at hl
    rw [if_neg (by simp)] at hl ⊢
    obtain ⟨acts, g1, g2, g3, g4, g5, g6, _, _, g9⟩ := watching_reports a h patience none _ s' (by rfl) hl
    obtain ⟨q1, q2⟩ := g9 hc hp
    refine ⟨acts, g1, ?_, ?_, g4, fun _ => g3, fun q => (by cases q), by rw [g3]; simp, g5, g6, q1, q2⟩
    · rw [g3]; exact g2.1
    · rw [g3]; exact g2.2
  | true =>
    rw [hf] at hl
    rw [if_pos rfl] at hl ⊢
    rcases sample_cases a h { s with blocked := true, first := true } (fun b s => watching a h patience (some b) (flush a (print b s))) with ⟨k, e⟩ | ⟨v, k, e⟩
    · rw [e] at hl ⊢
      rw [← leads_stop hl]
      refine ⟨[.got h none], rfl, fun _ => ⟨rfl, rfl⟩, fun _ _ => ⟨rfl, fun _ _ => rfl⟩, fun h => (by cases h), fun q => (by cases q), fun _ q => ?_, Nat.zero_le 1, trivial, trivial, Or.inl rfl, fun h => (by cases h)⟩
      rcases q with q | q
      · exact absurd rfl q
      · cases q
    · rw [e] at hl ⊢
      obtain ⟨acts, g1, g2, g3, g4, g5, g6, _, g8, g9⟩ := watching_reports a h patience (some v) _ s' (by rfl) hl
      simp only [flush, print] at g1 g8 g9
      have hsam : samples ([.got h (some v), .printed v, .flushed (a.flush k).1] ++ acts) = [v] := by rw [samples_append, g3]; rfl
      have hed : edges ([.got h (some v), .printed v, .flushed (a.flush k).1] ++ acts) = edges acts := rfl
      have hpr : printed ([.got h (some v), .printed v, .flushed (a.flush k).1] ++ acts) = v :: printed acts := rfl
      have hra : ran ([.got h (some v), .printed v, .flushed (a.flush k).1] ++ acts) = ran acts := rfl
      refine ⟨[.got h (some v), .printed v, .flushed (a.flush k).1] ++ acts, by rw [g1]; simp, ?_, ?_, g4, fun q => (by cases q), fun _ _ => by rw [hsam]; rfl, by rw [hsam]; exact Nat.le_refl 1, by exact g5, by exact g6, ?_⟩
      · intro hn
        rw [hsam, hed, hpr, hra]
        obtain ⟨x1, x2⟩ := g2.1 hn
        rw [x1]
        exact ⟨rfl, x2⟩
      · intro text ht
        rw [hsam, hed, hpr, hra]
        obtain ⟨x1, x2⟩ := g2.2 text ht
        rw [x1]
        exact ⟨rfl, x2⟩
      · cases hfl : (a.flush k).1 with
        | true =>
          rw [show after ([.got h (some v), .printed v, .flushed true] ++ acts) = acts from rfl]
          exact g8 (by rw [hc]; simp) (by rw [hfl]; simp)
        | false =>
          rw [show after ([.got h (some v), .printed v, .flushed false] ++ acts) = after acts from rfl]
          exact g9 (by rw [hc]; simp) (by rw [hp, hfl]; rfl)

end Diminuto.Linetool
