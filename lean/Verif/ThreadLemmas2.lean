import Verif.ThreadLemmas

/-!
# Lemmas: the thread object with one caller joining
-/

namespace Diminuto.Thread

/-- There is a thread. -/
def Phase.some (p : Phase) : Prop := ∀ v, p ≠ .rest v

/-- What is true where the caller that is joining is. -/
def At (s : S) (p : Phase) (f : Bool) : Pc → Prop
  | .idle => False
  | .waiting f' => f' = f ∧ p.some ∧ (s.state = .started ∨ s.state = .running)
  | .woken f' => f' = f ∧ p.some
  | .late => f = false ∧ p.some
  | .look .zero => p.some ∧ s.state = .exiting
  | .look .timedout => f = false ∧ p.some
  | .look .error => p = .rest none ∨ s.state = .joined ∨ (s.state = .exiting ∧ p.some)
  | .call => s.state = .exiting ∧ p.some
  | .joining _ => s.state = .exiting ∧ p.some
  | .store _ => s.state = .exiting
  | .last .zero => s.state = .joined
  | .last .timedout => f = false
  | .last .error => p = .rest none ∨ s.state = .joined
  | .take => s.state = .joined

/-- The callers. -/
def Strict (s : S) (p : Phase) : Who → Prop
  | none => ∀ c, s.pc c = .idle
  | some (c, f) => (∀ c', c' ≠ c → s.pc c' = .idle) ∧ At s p f (s.pc c)

/-- The caller that is joining after a step. -/
def Who.next (w : Who) : Obs → Who
  | .entered c f => some (c, f)
  | .returned _ _ _ => none
  | _ => w

/-- A step is permitted. -/
def allowed (w : Who) : Obs → Bool
  | .entered _ _ => w.isNone
  | .started _ => w.isNone
  | .notStarted => w.isNone
  | _ => true

theorem alone_cons (w : Who) (o : Obs) (h : List Obs) : alone w (o :: h) = (allowed w o && alone (w.next o) h) := by
  cases o <;> rfl

/-- The thread goes on: what is true of the caller is still true. -/
theorem at_broadcast {s s' : S} {p p' : Phase} {f : Bool} {q : Pc} (h : At s p f q) (hp : p.some) (hp' : p'.some) (h0 : s.state ≠ .joined)
    (hx : s.state = .exiting → s'.state = .exiting) : At s' p' f (broadcast (fun _ => q) 0) := by
  match q with
  | .idle => exact h
  | .waiting f' => exact ⟨h.1, hp'⟩
  | .woken f' => exact ⟨h.1, hp'⟩
  | .late => exact ⟨h.1, hp'⟩
  | .look .zero => exact ⟨hp', hx h.2⟩
  | .look .timedout => exact ⟨h.1, hp'⟩
  | .look .error =>
    rcases h with h | h | h
    · exact absurd h (hp _)
    · exact absurd h h0
    · exact .inr (.inr ⟨hx h.1, hp'⟩)
  | .call => exact ⟨hx h.1, hp'⟩
  | .joining _ => exact ⟨hx h.1, hp'⟩
  | .store _ => exact hx h
  | .last .zero => exact absurd h h0
  | .last .timedout => exact h
  | .last .error =>
    rcases h with h | h
    · exact absurd h (hp _)
    · exact absurd h h0
  | .take => exact absurd h h0

/-- The same without a broadcast, if the state is the same. -/
theorem at_same {s s' : S} {p p' : Phase} {f : Bool} {q : Pc} (h : At s p f q) (hp : p.some) (hp' : p'.some) (hs : s'.state = s.state) : At s' p' f q := by
  match q with
  | .idle => exact h
  | .waiting f' => exact ⟨h.1, hp', by rw [hs]; exact h.2.2⟩
  | .woken f' => exact ⟨h.1, hp'⟩
  | .late => exact ⟨h.1, hp'⟩
  | .look .zero => exact ⟨hp', by rw [hs]; exact h.2⟩
  | .look .timedout => exact ⟨h.1, hp'⟩
  | .look .error =>
    rcases h with h | h | h
    · exact absurd h (hp _)
    · exact .inr (.inl (by rw [hs]; exact h))
    · exact .inr (.inr ⟨by rw [hs]; exact h.1, hp'⟩)
  | .call => exact ⟨by rw [hs]; exact h.1, hp'⟩
  | .joining _ => exact ⟨by rw [hs]; exact h.1, hp'⟩
  | .store _ => show s'.state = _; rw [hs]; exact h
  | .last .zero => show s'.state = _; rw [hs]; exact h
  | .last .timedout => exact h
  | .last .error =>
    rcases h with h | h
    · exact absurd h (hp _)
    · exact .inr (by rw [hs]; exact h)
  | .take => show s'.state = _; rw [hs]; exact h

theorem strict_broadcast {s s' : S} {p p' : Phase} {w : Who} (h : Strict s p w) (hp : p.some) (hp' : p'.some) (h0 : s.state ≠ .joined)
    (hx : s.state = .exiting → s'.state = .exiting) (e : s'.pc = broadcast s.pc) : Strict s' p' w := by
  match w with
  | none => intro c; rw [e, bc_idle]; exact h c
  | some (c, f) =>
    refine ⟨fun c' hc => ?_, ?_⟩
    · rw [e, bc_idle]; exact h.1 c' hc
    · rw [e]
      have := at_broadcast h.2 hp hp' h0 hx
      exact this

theorem strict_same {s s' : S} {p p' : Phase} {w : Who} (h : Strict s p w) (hp : p.some) (hp' : p'.some) (hs : s'.state = s.state) (e : s'.pc = s.pc) :
    Strict s' p' w := by
  match w with
  | none => intro c; rw [e]; exact h c
  | some (c, f) =>
    refine ⟨fun c' hc => ?_, ?_⟩
    · rw [e]; exact h.1 c' hc
    · rw [e]
      exact at_same h.2 hp hp' hs

/-- The thread of an object that has one that is not gone. -/
theorem Inv.has {s : S} {p : Phase} (h : Inv s p) {g : Nat} (hn : s.thr g ≠ .none) (hr : s.thr g ≠ .reaped) : p.some ∧ s.state ≠ .joined := by
  obtain ⟨rfl, hm⟩ := h.live hn hr
  have := h.phase hm
  match ht : s.thr s.cur with
  | .none => exact absurd ht hn
  | .created => rw [ht] at this; obtain ⟨x, rfl, _, hs, _⟩ := this; exact ⟨(by intro v h; cases h), by rw [hs]; decide⟩
  | .begun => rw [ht] at this; obtain ⟨x, rfl, _, hs⟩ := this; exact ⟨(by intro v h; cases h), by rw [hs]; decide⟩
  | .inside => rw [ht] at this; obtain ⟨rfl, hs⟩ := this; exact ⟨(by intro v h; cases h), by rw [hs]; decide⟩
  | .leaving f n =>
    rw [ht] at this
    obtain ⟨rfl, ⟨hs, _⟩ | hs⟩ := this
    · exact ⟨(by intro v h; cases h), by rw [hs]; decide⟩
    · exact ⟨(by intro v h; cases h), by rw [hs]; decide⟩
  | .ended v =>
    rw [ht] at this
    obtain ⟨rfl, hs | hs⟩ := this
    · exact ⟨(by intro v h; cases h), by rw [hs]; decide⟩
    · exact ⟨(by intro v h; cases h), by rw [hs]; decide⟩
  | .reaped => exact absurd ht hr

/-- A state in which there is a thread. -/
theorem Inv.started {s : S} {p : Phase} (h : Inv s p) (hs : s.state = .started ∨ s.state = .running ∨ s.state = .exiting) (hn : ∀ c v, s.pc c ≠ .store v) : p.some := by
  intro v e
  subst e
  have := h.cur
  match v, this with
  | none, ⟨h1, _⟩ =>
    rcases h1 with h1 | h1 <;> rw [h1] at hs <;> simp at hs
  | some v, ⟨_, _, h3⟩ =>
    rcases h3 with ⟨h3, _⟩ | ⟨_, c, h3⟩
    · rw [h3] at hs; simp at hs
    · exact hn c v h3

/-- If a caller joins, this is it. -/
theorem Strict.who {s : S} {p : Phase} {w : Who} (h : Strict s p w) {c : Nat} (hc : s.pc c ≠ .idle) : ∃ f, w = some (c, f) ∧ (∀ c', c' ≠ c → s.pc c' = .idle) ∧ At s p f (s.pc c) := by
  match w with
  | none => exact absurd (h c) hc
  | some (c', f) =>
    by_cases e : c = c'
    · subst e; exact ⟨f, rfl, h⟩
    · exact absurd (h.1 c e) hc

theorem strict_move {s s' : S} {p' : Phase} {c : Nat} {f : Bool} {q : Pc} (hi : ∀ c', c' ≠ c → s.pc c' = .idle) (e : s'.pc = set s.pc c q) (ha : At s' p' f q) :
    Strict s' p' (some (c, f)) := by
  refine ⟨fun c' hc => ?_, ?_⟩
  · rw [e, set_ne _ _ hc]; exact hi c' hc
  · rw [e, set_at]; exact ha

/-- A result that is right, of a step. -/
def Good (p : Phase) (w : Who) : Obs → Prop
  | .returned c rc v => Right p w c rc v
  | _ => True

theorem Inv.joined {s : S} {p : Phase} (h : Inv s p) (hs : s.state = .joined) : p = .rest (some s.value) := by
  have := h.cur
  match p, this with
  | .rest none, ⟨h1, _⟩ => rcases h1 with h1 | h1 <;> rw [h1] at hs <;> cases hs
  | .rest (some v), ⟨_, _, h3⟩ =>
    rcases h3 with ⟨_, h3⟩ | ⟨h3 | h3, _⟩
    · rw [h3]
    · rw [h3] at hs; cases hs
    · rw [h3] at hs; cases hs
  | .due _, ⟨_, _, h3⟩ => rcases h3 with ⟨h3, _⟩ | ⟨h3, _⟩ <;> rw [h3] at hs <;> cases hs
  | .active, ⟨_, h2, _⟩ => rw [h2] at hs; cases hs
  | .over _, ⟨_, h2⟩ =>
    rcases h2 with ⟨_, _, _, _, ⟨h3, _⟩ | h3⟩ | ⟨_, h3 | h3⟩ <;> rw [h3] at hs <;> cases hs

theorem caller_strict {s : S} {p p' : Phase} {w : Who} (h : Inv s p) (hs : Strict s p w) {c : Nat} {s' : S} {o : Obs} (e : caller s c = some (.ok s' o))
    (hp : p.next o = some p') (h' : Inv s' p') : Strict s' p' (w.next o) ∧ Good p w o := by
  unfold caller at e
  have hidle : s.pc c ≠ .idle := by intro hi; rw [hi] at e; cases e
  obtain ⟨f, rfl, hi, ha⟩ := hs.who hidle
  cases hpc : s.pc c with
  | idle => exact absurd hpc hidle
  | waiting f => rw [hpc] at e; cases e
  | woken f' =>
    rw [hpc] at e ha
    obtain ⟨rfl, hpn⟩ := ha
    simp only [] at e
    split at e
    · rename_i hst
      cases e
      rw [next_nothing, Option.some.injEq] at hp
      subst hp
      exact ⟨strict_move hi rfl ⟨hpn, hst⟩, trivial⟩
    · rename_i hst
      cases e
      rw [next_nothing, Option.some.injEq] at hp
      subst hp
      refine ⟨strict_move hi rfl ⟨rfl, hpn, ?_⟩, trivial⟩
      show s.state = _ ∨ s.state = _
      have := h.cur
      match p, this with
      | .rest v, _ => exact absurd rfl (hpn v)
      | .due _, ⟨_, _, h3⟩ =>
        rcases h3 with ⟨h3, _⟩ | ⟨h3, _⟩
        · exact .inl h3
        · exact .inr h3
      | .active, ⟨_, h2, _⟩ => exact .inr h2
      | .over _, ⟨_, h2⟩ =>
        rcases h2 with ⟨_, _, _, _, ⟨h3, _⟩ | h3⟩ | ⟨_, h3 | h3⟩
        · exact .inr h3
        · exact absurd h3 hst
        · exact absurd h3 hst
        · exact .inl h3
  | late =>
    rw [hpc] at e ha
    cases e
    rw [next_nothing, Option.some.injEq] at hp
    subst hp
    exact ⟨strict_move hi rfl ⟨ha.1, ha.2⟩, trivial⟩
  | look rc =>
    rw [hpc] at e ha
    simp only [] at e
    split at e
    · rename_i hst
      cases e
      rw [next_nothing, Option.some.injEq] at hp
      subst hp
      refine ⟨strict_move hi rfl ⟨hst, ?_⟩, trivial⟩
      cases rc with
      | zero => exact ha.1
      | timedout => exact ha.2
      | error =>
        rcases ha with ha | ha | ha
        · subst ha
          obtain ⟨h1 | h1, _⟩ := h.cur <;> rw [h1] at hst <;> cases hst
        · rw [ha] at hst; cases hst
        · exact ha.2
    · rename_i hst
      cases e
      rw [next_nothing, Option.some.injEq] at hp
      subst hp
      refine ⟨strict_move hi rfl ?_, trivial⟩
      cases rc with
      | zero => exact absurd ha.2 hst
      | timedout => exact ha.1
      | error =>
        rcases ha with ha | ha | ha
        · exact .inl ha
        · exact .inr ha
        · exact absurd ha.1 hst
  | call =>
    rw [hpc] at e ha
    simp only [] at e
    split at e
    · cases e
    · cases e
      rw [next_nothing, Option.some.injEq] at hp
      subst hp
      exact ⟨strict_move hi rfl ha, trivial⟩
  | joining g =>
    rw [hpc] at e ha
    simp only [] at e
    split at e
    · cases e
      exact ⟨strict_move hi rfl ha.1, trivial⟩
    · cases e
  | store v =>
    rw [hpc] at e ha
    cases e
    refine ⟨⟨fun c' hc => ?_, ?_⟩, trivial⟩
    · show set (broadcast s.pc) c _ c' = _
      rw [set_ne _ _ hc, bc_idle]
      exact hi c' hc
    · show At _ _ _ (set (broadcast s.pc) c _ c)
      rw [set_at]
      rfl
  | last rc =>
    rw [hpc] at e ha
    simp only [] at e
    split at e
    · rename_i hst
      cases e
      exact ⟨strict_move hi rfl hst, trivial⟩
    · rename_i hst
      cases e
      refine ⟨fun c' => ?_, ?_⟩
      · show set s.pc c _ c' = _
        by_cases ec : c' = c
        · subst ec; exact set_at ..
        · rw [set_ne _ _ ec]; exact hi c' ec
      · cases rc with
        | zero => exact absurd ha hst
        | timedout =>
          have ha : f = false := ha
          subst ha
          exact ⟨rfl, rfl⟩
        | error =>
          rcases ha with ha | ha
          · exact ⟨ha, rfl⟩
          · exact absurd ha hst
  | take =>
    rw [hpc] at e ha
    cases e
    refine ⟨fun c' => ?_, ?_⟩
    · show set s.pc c _ c' = _
      by_cases ec : c' = c
      · subst ec; exact set_at ..
      · rw [set_ne _ _ ec]; exact hi c' ec
    · exact ⟨s.value, h.joined ha, rfl⟩

/-- With one caller joining and no start meanwhile, results are right. -/
theorem step_strict {s : S} {p p' : Phase} {w : Who} (h : Inv s p) (hs : Strict s p w) {l : Label} {s' : S} {o : Obs} (e : step s l = some (.ok s' o))
    (hp : p.next o = some p') (h' : Inv s' p') (ha : allowed w o = true) : Strict s' p' (w.next o) ∧ Good p w o := by
  cases l with
  | start sig create x =>
    replace e := Option.some.inj e
    unfold start at e
    split at e
    · split at e
      · cases e
        cases (show p.next .refused = some p by cases p <;> rfl).symm.trans hp
        exact ⟨hs, trivial⟩
      · split at e
        · cases e
          match w, ha, hs with
          | none, _, hs => exact ⟨fun c => bc_idle.2 (hs c), trivial⟩
        · cases e
          match w, ha, hs with
          | none, _, hs => exact ⟨fun c => bc_idle.2 (hs c), trivial⟩
    · cases e
      cases (show p.next .refused = some p by cases p <;> rfl).symm.trans hp
      exact ⟨hs, trivial⟩
  | notify =>
    replace e := Option.some.inj e
    unfold notify at e
    split at e
    · rename_i hst
      split at e
      · cases e
      · split at e
        · cases e
        · cases e
        · rename_i hn hr
          cases e
          obtain ⟨hps, hj⟩ := h.has (fun hh => hn hh) (fun hh => hr hh)
          cases (show p.next .notified = some p by cases p <;> rfl).symm.trans hp
          exact ⟨strict_broadcast hs hps hps hj id rfl, trivial⟩
    · cases e
      cases (next_nothing p).symm.trans hp
      exact ⟨hs, trivial⟩
  | enter c f =>
    by_cases hi : s.pc c = .idle
    · replace e := Option.some.inj ((if_pos hi).symm.trans e)
      have key : ∀ q, s' = { s with pc := set s.pc c q } → At s' p' f q → o = .entered c f → Strict s' p' (w.next o) ∧ Good p w o := by
        intro q e1 e2 e3
        subst e3
        match w, ha, hs with
        | none, _, hs => exact ⟨strict_move (fun c' _ => hs c') (by rw [e1]) e2, trivial⟩
      have hw : w.isNone = true := by
        unfold enter at e
        split at e <;> cases e <;> exact ha
      have hidle : ∀ c, s.pc c = .idle := by
        match w, hw, hs with
        | none, _, hs => exact hs
      have hns : ∀ c v, s.pc c ≠ .store v := by intro c v hc; rw [hidle c] at hc; cases hc
      have hpp : o = .entered c f → p' = p := by
        intro eo
        subst eo
        exact (Option.some.inj ((show p.next (.entered c f) = some p by cases p <;> rfl).symm.trans hp)).symm
      unfold enter at e
      split at e
      · rename_i hst
        cases e
        cases hpp rfl
        exact key _ rfl ⟨rfl, h.started (by rcases hst with h | h <;> rw [h] <;> simp) hns, hst⟩ rfl
      · rename_i hst
        cases e
        cases hpp rfl
        refine key _ rfl ?_ rfl
        show p = _ ∨ s.state = _ ∨ (s.state = _ ∧ _)
        cases hss : s.state with
        | initialized =>
          left
          have := h.cur
          match p, this with
          | .rest none, _ => rfl
          | .rest (some v), ⟨_, _, h3⟩ => rcases h3 with ⟨h3, _⟩ | ⟨h3 | h3, _⟩ <;> rw [h3] at hss <;> cases hss
          | .due _, ⟨_, _, h3⟩ => rcases h3 with ⟨h3, _⟩ | ⟨h3, _⟩ <;> rw [h3] at hss <;> cases hss
          | .active, ⟨_, h2, _⟩ => rw [h2] at hss; cases hss
          | .over _, ⟨_, h2⟩ => rcases h2 with ⟨_, _, _, _, ⟨h3, _⟩ | h3⟩ | ⟨_, h3 | h3⟩ <;> rw [h3] at hss <;> cases hss
        | failed =>
          left
          have := h.cur
          match p, this with
          | .rest none, _ => rfl
          | .rest (some v), ⟨_, _, h3⟩ => rcases h3 with ⟨h3, _⟩ | ⟨h3 | h3, _⟩ <;> rw [h3] at hss <;> cases hss
          | .due _, ⟨_, _, h3⟩ => rcases h3 with ⟨h3, _⟩ | ⟨h3, _⟩ <;> rw [h3] at hss <;> cases hss
          | .active, ⟨_, h2, _⟩ => rw [h2] at hss; cases hss
          | .over _, ⟨_, h2⟩ => rcases h2 with ⟨_, _, _, _, ⟨h3, _⟩ | h3⟩ | ⟨_, h3 | h3⟩ <;> rw [h3] at hss <;> cases hss
        | started => exact absurd (.inl hss) hst
        | running => exact absurd (.inr hss) hst
        | joined => exact .inr (.inl rfl)
        | exiting => exact .inr (.inr ⟨rfl, h.started (by rw [hss]; simp) hns⟩)
    · cases (if_neg hi).symm.trans e
  | spurious c =>
    simp only [step] at e
    split at e
    · rename_i f hf
      cases e
      obtain ⟨f', rfl, hi, hat⟩ := hs.who (c := c) (by rw [hf]; simp)
      rw [hf] at hat
      cases (next_nothing p).symm.trans hp
      exact ⟨strict_move hi rfl ⟨hat.1, hat.2.1⟩, trivial⟩
    · cases e
  | timeout c =>
    simp only [step] at e
    split at e
    · rename_i hf
      cases e
      obtain ⟨f', rfl, hi, hat⟩ := hs.who (c := c) (by rw [hf]; simp)
      rw [hf] at hat
      cases (next_nothing p).symm.trans hp
      exact ⟨strict_move hi rfl ⟨hat.1.symm, hat.2.1⟩, trivial⟩
    · cases e
  | caller c => exact caller_strict h hs e hp h'
  | begin g ok =>
    simp only [step] at e
    split at e
    · rename_i ht
      obtain ⟨hps, hj⟩ := h.has (g := g) (by rw [ht]; simp) (by rw [ht]; simp)
      obtain ⟨rfl, hm⟩ := h.live (g := g) (by rw [ht]; simp) (by rw [ht]; simp)
      have hph := h.phase hm
      rw [ht] at hph
      obtain ⟨x, rfl, _, hst, _⟩ := hph
      split at e
      · cases e
        cases hp
        exact ⟨strict_broadcast hs hps hps hj (by rw [hst]; intro h; cases h) rfl, trivial⟩
      · cases e
        cases hp
        exact ⟨strict_same hs hps (by intro v h; cases h) rfl rfl, trivial⟩
    · cases e
  | function g =>
    simp only [step] at e
    split at e
    · rename_i ht
      obtain ⟨hps, _⟩ := h.has (g := g) (by rw [ht]; simp) (by rw [ht]; simp)
      obtain ⟨rfl, hm⟩ := h.live (g := g) (by rw [ht]; simp) (by rw [ht]; simp)
      have hph := h.phase hm
      rw [ht] at hph
      obtain ⟨x, rfl, hx, hst⟩ := hph
      cases e
      cases (if_pos hx.symm).symm.trans hp
      exact ⟨strict_same hs hps (by intro v h; cases h) rfl rfl, trivial⟩
    · cases e
  | «return» g v =>
    simp only [step] at e
    split at e
    · rename_i ht
      obtain ⟨hps, _⟩ := h.has (g := g) (by rw [ht]; simp) (by rw [ht]; simp)
      obtain ⟨rfl, hm⟩ := h.live (g := g) (by rw [ht]; simp) (by rw [ht]; simp)
      have hph := h.phase hm
      rw [ht] at hph
      obtain ⟨rfl, hst⟩ := hph
      cases e
      cases hp
      exact ⟨strict_same hs hps (by intro v h; cases h) rfl rfl, trivial⟩
    · cases e
  | exit g v =>
    simp only [step] at e
    split at e
    · rename_i ht
      obtain ⟨hps, _⟩ := h.has (g := g) (by rw [ht]; simp) (by rw [ht]; simp)
      obtain ⟨rfl, hm⟩ := h.live (g := g) (by rw [ht]; simp) (by rw [ht]; simp)
      have hph := h.phase hm
      rw [ht] at hph
      obtain ⟨rfl, hst⟩ := hph
      cases e
      cases hp
      exact ⟨strict_same hs hps (by intro v h; cases h) rfl rfl, trivial⟩
    · cases e
  | cancel g =>
    simp only [step] at e
    split at e
    · rename_i ht
      obtain ⟨hps, _⟩ := h.has (g := g) (by rw [ht]; simp) (by rw [ht]; simp)
      obtain ⟨rfl, hm⟩ := h.live (g := g) (by rw [ht]; simp) (by rw [ht]; simp)
      have hph := h.phase hm
      rw [ht] at hph
      obtain ⟨rfl, hst⟩ := hph
      cases e
      cases hp
      exact ⟨strict_same hs hps (by intro v h; cases h) rfl rfl, trivial⟩
    · cases e
  | thread g =>
    have e : thread s g = _ := e
    unfold thread at e
    split at e
    · rename_i v n ht
      obtain ⟨hps, hj⟩ := h.has (g := g) (by rw [ht]; simp) (by rw [ht]; simp)
      cases e
      cases (next_nothing p).symm.trans hp
      exact ⟨strict_broadcast hs hps hps hj (fun _ => rfl) rfl, trivial⟩
    · rename_i v ht
      obtain ⟨hps, hj⟩ := h.has (g := g) (by rw [ht]; simp) (by rw [ht]; simp)
      cases e
      cases (next_nothing p).symm.trans hp
      exact ⟨strict_same hs hps hps rfl rfl, trivial⟩
    · cases e
  | notifications g =>
    simp only [step] at e
    split at e
    · rename_i ht
      obtain ⟨hps, hj⟩ := h.has (g := g) (by rw [ht]; simp) (by rw [ht]; simp)
      cases e
      cases (show p.next (.counted s.notifications) = some p by cases p <;> rfl).symm.trans hp
      exact ⟨strict_broadcast hs hps hps hj id rfl, trivial⟩
    · cases e

/-- With one caller joining, the only undefined behaviour is that of the number of notifications. -/
theorem step_ub {s : S} {p : Phase} {w : Who} (h : Inv s p) (hs : Strict s p w) {l : Label} (e : step s l = some .ub) : s.notifications ≥ 2 ^ 31 - 1 := by
  cases l with
  | start sig create x =>
    replace e := Option.some.inj e
    unfold start at e
    split at e
    · split at e
      · cases e
      · split at e <;> cases e
    · cases e
  | notify =>
    replace e := Option.some.inj e
    unfold notify at e
    split at e
    · rename_i hst
      split at e
      · rename_i hn; exact hn
      · exfalso
        have hns : ∀ c v, s.pc c ≠ .store v := by
          intro c v hc
          obtain ⟨f, rfl, _, ha⟩ := hs.who (c := c) (by rw [hc]; simp)
          rw [hc] at ha
          have ha : s.state = .exiting := ha
          rw [ha] at hst
          simp at hst
        have hps := h.started (by rcases hst with h | h <;> rw [h] <;> simp) hns
        have hm : s.made ≠ 0 := by
          have := h.cur
          match p, this with
          | .rest v, _ => exact absurd rfl (hps v)
          | .due _, ⟨h1, _⟩ => exact h1
          | .active, ⟨h1, _⟩ => exact h1
          | .over _, ⟨h1, _⟩ => exact h1
        have hph := h.phase hm
        split at e
        · rename_i ht; rw [ht] at hph; exact hph
        · rename_i ht
          rw [ht] at hph
          rcases hph with ⟨rfl, _⟩ | ⟨v, rfl, _⟩
          · exact hps _ rfl
          · exact hps _ rfl
        · cases e
    · cases e
  | enter c f =>
    by_cases hi : s.pc c = .idle
    · replace e := Option.some.inj ((if_pos hi).symm.trans e)
      unfold enter at e
      split at e <;> cases e
    · cases (if_neg hi).symm.trans e
  | spurious c => simp only [step] at e; split at e <;> cases e
  | timeout c => simp only [step] at e; split at e <;> cases e
  | caller c =>
    have e : caller s c = _ := e
    unfold caller at e
    cases hpc : s.pc c with
    | call =>
      exfalso
      obtain ⟨f, rfl, hi, ha⟩ := hs.who (c := c) (by rw [hpc]; simp)
      rw [hpc] at e ha
      simp only [] at e
      split at e
      · rename_i hn
        have hm : s.made ≠ 0 := by
          have := h.cur
          match p, this with
          | .rest v, _ => exact absurd rfl (ha.2 v)
          | .due _, ⟨h1, _⟩ => exact h1
          | .active, ⟨h1, _⟩ => exact h1
          | .over _, ⟨h1, _⟩ => exact h1
        have hph := h.phase hm
        rcases hn with hn | hn | hn
        · rw [hn] at hph
          rcases hph with ⟨rfl, _⟩ | ⟨v, rfl, _⟩
          · exact ha.2 _ rfl
          · exact ha.2 _ rfl
        · rw [hn] at hph; exact hph
        · obtain ⟨c', hc'⟩ := h.busy _ hn
          by_cases ec : c' = c
          · subst ec; rw [hpc] at hc'; cases hc'
          · rw [hi c' ec] at hc'; cases hc'
      · cases e
    | idle => rw [hpc] at e; cases e
    | waiting f => rw [hpc] at e; cases e
    | woken f => rw [hpc] at e; simp only [] at e; split at e <;> cases e
    | late => rw [hpc] at e; cases e
    | look rc => rw [hpc] at e; simp only [] at e; split at e <;> cases e
    | joining g => rw [hpc] at e; simp only [] at e; split at e <;> cases e
    | store v => rw [hpc] at e; cases e
    | last rc => rw [hpc] at e; simp only [] at e; split at e <;> cases e
    | take => rw [hpc] at e; cases e
  | begin g ok => simp only [step] at e; split at e; (split at e <;> cases e); cases e
  | function g => simp only [step] at e; split at e <;> cases e
  | «return» g v => simp only [step] at e; split at e <;> cases e
  | exit g v => simp only [step] at e; split at e <;> cases e
  | cancel g => simp only [step] at e; split at e <;> cases e
  | thread g => have e : thread s g = _ := e; unfold thread at e; split at e <;> cases e
  | notifications g => simp only [step] at e; split at e <;> cases e

end Diminuto.Thread
