import Verif.ThreadSpec

/-!
# Lemmas: the thread object
-/

namespace Diminuto.Thread

/-- How the object and its thread are in a phase. -/
def Cur (s : S) : Phase → Prop
  | .rest none => (s.state = .initialized ∨ s.state = .failed) ∧ (s.made ≠ 0 → s.thr s.cur = .reaped)
  | .rest (some v) => s.made ≠ 0 ∧ s.thr s.cur = .reaped ∧ ((s.state = .joined ∧ s.value = v) ∨ ((s.state = .exiting ∨ s.state = .started) ∧ ∃ c, s.pc c = .store v))
  | .due x => s.made ≠ 0 ∧ s.context = x ∧ ((s.state = .started ∧ s.thr s.cur = .created ∧ s.value = NOVALUE) ∨ (s.state = .running ∧ s.thr s.cur = .begun))
  | .active => s.made ≠ 0 ∧ s.state = .running ∧ s.thr s.cur = .inside
  | .over v => s.made ≠ 0 ∧ ((∃ f n, s.thr s.cur = .leaving f n ∧ f.getD s.value = v ∧ ((s.state = .running ∧ 1 ≤ n) ∨ s.state = .exiting)) ∨
      (s.thr s.cur = .ended v ∧ (s.state = .exiting ∨ s.state = .started)))

/-- What is true of the object at any time. -/
structure Inv (s : S) (p : Phase) : Prop where
  old : ∀ g, g < s.made → g ≠ s.cur → s.thr g = .reaped
  new : ∀ g, s.made ≤ g → s.thr g = .none
  num : s.made ≠ 0 → s.cur < s.made
  cur : Cur s p
  joining : ∀ c g, s.pc c = .joining g → g = s.cur ∧ s.busy g = true ∧ s.made ≠ 0 ∧ s.thr s.cur ≠ .reaped
  store : ∀ c v, s.pc c = .store v → p = .rest (some v) ∧ (s.state = .exiting ∨ s.state = .started)
  one : ∀ c c' v v', s.pc c = .store v → s.pc c' = .store v' → c = c'
  two : ∀ c c' g g', s.pc c = .joining g → s.pc c' = .joining g' → c = c'
  busy : ∀ g, s.busy g = true → ∃ c, s.pc c = .joining g

theorem bc_of {pc : Nat → Pc} {c : Nat} {q : Pc} (h : ∀ f, q ≠ .waiting f ∧ q ≠ .woken f) : broadcast pc c = q ↔ pc c = q := by
  unfold broadcast
  split
  · rename_i f hf
    constructor
    · intro e; exact absurd e.symm (h f).2
    · intro e; rw [hf] at e; exact absurd e.symm (h f).1
  · rfl

theorem bc_joining {pc : Nat → Pc} {c g : Nat} : broadcast pc c = .joining g ↔ pc c = .joining g := bc_of (by simp)
theorem bc_store {pc : Nat → Pc} {c v : Nat} : broadcast pc c = .store v ↔ pc c = .store v := bc_of (by simp)
theorem bc_idle {pc : Nat → Pc} {c : Nat} : broadcast pc c = .idle ↔ pc c = .idle := bc_of (by simp)

theorem set_same {α : Type} (f : Nat → α) (i : Nat) (a : α) : set f i a = fun j => if j = i then a else f j := rfl
theorem set_at {α : Type} (f : Nat → α) (i : Nat) (a : α) : set f i a i = a := if_pos rfl
theorem set_ne {α : Type} (f : Nat → α) {i j : Nat} (a : α) (h : j ≠ i) : set f i a j = f j := if_neg h

theorem inv_init : Inv init (.rest none) where
  old g hg := by simp [init] at hg
  new g _ := rfl
  num h := absurd rfl h
  cur := ⟨.inl rfl, fun h => absurd rfl h⟩
  joining c g h := by cases h
  store c v h := by cases h
  one c c' v v' h := by cases h
  two c c' v v' h := by cases h
  busy g h := by cases h

/-- A thread that is not gone is the one of the object. -/
theorem Inv.live {s : S} {p : Phase} (h : Inv s p) {g : Nat} (hn : s.thr g ≠ .none) (hr : s.thr g ≠ .reaped) : g = s.cur ∧ s.made ≠ 0 := by
  have h1 : g < s.made := by
    apply Classical.byContradiction
    intro h'
    exact hn (h.new g (by omega))
  refine ⟨?_, by omega⟩
  apply Classical.byContradiction
  intro h'
  exact hr (h.old g h1 h')

/-- Steps of which only the callers that do not matter are changed. -/
theorem Inv.pcs {s : S} {p : Phase} (h : Inv s p) {pc : Nat → Pc} (hj : ∀ c g, pc c = .joining g ↔ s.pc c = .joining g) (hs : ∀ c v, pc c = .store v ↔ s.pc c = .store v) :
    Inv { s with pc := pc } p where
  old := h.old
  new := h.new
  num := h.num
  cur := by
    have := h.cur
    match p, this with
    | .rest none, this => exact this
    | .rest (some v), ⟨h1, h2, h3⟩ =>
      refine ⟨h1, h2, ?_⟩
      rcases h3 with h3 | ⟨h3, c, h4⟩
      · exact .inl h3
      · exact .inr ⟨h3, c, (hs c v).2 h4⟩
    | .due x, this => exact this
    | .active, this => exact this
    | .over v, this => exact this
  joining c g hc := h.joining c g ((hj c g).1 hc)
  store c v hc := h.store c v ((hs c v).1 hc)
  one c c' v v' hc hc' := h.one c c' v v' ((hs _ _).1 hc) ((hs _ _).1 hc')
  two c c' v v' hc hc' := h.two c c' v v' ((hj _ _).1 hc) ((hj _ _).1 hc')
  busy g hg := by
    obtain ⟨c, hc⟩ := h.busy g hg
    exact ⟨c, (hj c g).2 hc⟩

theorem Inv.broadcast {s : S} {p : Phase} (h : Inv s p) : Inv { s with pc := broadcast s.pc } p := h.pcs (fun _ _ => bc_joining) fun _ _ => bc_store

/-- A caller goes from one place that does not matter to another. -/
theorem Inv.move {s : S} {p : Phase} (h : Inv s p) {c : Nat} {q : Pc} (h1 : ∀ g, s.pc c ≠ .joining g) (h2 : ∀ v, s.pc c ≠ .store v)
    (h3 : ∀ g, q ≠ .joining g) (h4 : ∀ v, q ≠ .store v) : Inv { s with pc := set s.pc c q } p := by
  apply h.pcs
  · intro c' g
    by_cases e : c' = c
    · subst e; rw [set_at]; exact ⟨fun h => absurd h (h3 g), fun h => absurd h (h1 g)⟩
    · rw [set_ne _ _ e]
  · intro c' v
    by_cases e : c' = c
    · subst e; rw [set_at]; exact ⟨fun h => absurd h (h4 v), fun h => absurd h (h2 v)⟩
    · rw [set_ne _ _ e]

/-- The thread of the object goes from one place to another. -/
theorem Inv.go {s : S} {p p' : Phase} (h : Inv s p) {t : Thr} {st : State} {v n : Nat} {pc : Nat → Pc} (hm : s.made ≠ 0) (ht : t ≠ .reaped)
    (hp : s.thr s.cur ≠ .reaped)
    (hj : ∀ c g, pc c = .joining g ↔ s.pc c = .joining g) (hs : ∀ c v, pc c = .store v ↔ s.pc c = .store v)
    (hc : Cur { s with state := st, value := v, notifications := n, pc := pc, thr := set s.thr s.cur t } p') :
    Inv { s with state := st, value := v, notifications := n, pc := pc, thr := set s.thr s.cur t } p' where
  old g h1 h2 := by
    have h2 : g ≠ s.cur := h2
    show set s.thr s.cur t g = _
    rw [set_ne _ _ h2]
    exact h.old g h1 h2
  new g h1 := by
    have h1 : s.made ≤ g := h1
    have := h.num hm
    show set s.thr s.cur t g = _
    rw [set_ne _ _ (by omega)]
    exact h.new g h1
  num := h.num
  cur := hc
  joining c g hc := by
    obtain ⟨h1, h2, h3, _⟩ := h.joining c g ((hj c g).1 hc)
    refine ⟨h1, h2, h3, ?_⟩
    show set s.thr s.cur t s.cur ≠ _
    rw [set_at]
    exact ht
  store c v hc := by
    obtain ⟨h1, _⟩ := h.store c v ((hs c v).1 hc)
    exfalso
    have := h.cur
    rw [h1] at this
    exact hp this.2.1
  one c c' v v' hc hc' := h.one c c' v v' ((hs _ _).1 hc) ((hs _ _).1 hc')
  two c c' v v' hc hc' := h.two c c' v v' ((hj _ _).1 hc) ((hj _ _).1 hc')
  busy g hg := by
    obtain ⟨c, hc⟩ := h.busy g hg
    exact ⟨c, (hj c g).2 hc⟩

/-- The phase, given where the thread is. -/
theorem Inv.phase {s : S} {p : Phase} (h : Inv s p) (hm : s.made ≠ 0) : match s.thr s.cur with
    | .none => False
    | .created => ∃ x, p = .due x ∧ s.context = x ∧ s.state = .started ∧ s.value = NOVALUE
    | .begun => ∃ x, p = .due x ∧ s.context = x ∧ s.state = .running
    | .inside => p = .active ∧ s.state = .running
    | .leaving f n => p = .over (f.getD s.value) ∧ ((s.state = .running ∧ 1 ≤ n) ∨ s.state = .exiting)
    | .ended v => p = .over v ∧ (s.state = .exiting ∨ s.state = .started)
    | .reaped => (p = .rest none ∧ (s.state = .initialized ∨ s.state = .failed)) ∨
        ∃ v, p = .rest (some v) ∧ ((s.state = .joined ∧ s.value = v) ∨ ((s.state = .exiting ∨ s.state = .started) ∧ ∃ c, s.pc c = .store v)) := by
  have hc := h.cur
  match p, hc with
  | .rest none, ⟨h1, h2⟩ => rw [h2 hm]; exact .inl ⟨rfl, h1⟩
  | .rest (some v), ⟨_, h2, h3⟩ => rw [h2]; exact .inr ⟨v, rfl, h3⟩
  | .due x, ⟨_, h2, h3⟩ =>
    rcases h3 with ⟨h3, h4, h5⟩ | ⟨h3, h4⟩
    · rw [h4]; exact ⟨x, rfl, h2, h3, h5⟩
    · rw [h4]; exact ⟨x, rfl, h2, h3⟩
  | .active, ⟨_, h2, h3⟩ => rw [h3]; exact ⟨rfl, h2⟩
  | .over v, ⟨_, h2⟩ =>
    rcases h2 with ⟨f, n, h3, h4, h5⟩ | ⟨h3, h4⟩
    · rw [h3]; exact ⟨by rw [h4], h5⟩
    · rw [h3]; exact ⟨rfl, h4⟩

theorem start_inv {s : S} {p : Phase} (h : Inv s p) {sig create : Bool} {x : Nat} {s' : S} {o : Obs} (e : start s sig create x = .ok s' o) :
    ∃ p', p.next o = some p' ∧ Inv s' p' := by
  unfold start at e
  split at e
  · rename_i hst
    have hrest : (∃ v, p = .rest v) ∧ (s.made ≠ 0 → s.thr s.cur = .reaped) := by
      have := h.cur
      match p, this with
      | .rest none, ⟨_, h2⟩ => exact ⟨⟨_, rfl⟩, h2⟩
      | .rest (some v), ⟨_, h2, _⟩ => exact ⟨⟨_, rfl⟩, fun _ => h2⟩
      | .due _, ⟨_, _, h3⟩ => rcases h3 with ⟨h3, _⟩ | ⟨h3, _⟩ <;> rw [h3] at hst <;> simp at hst
      | .active, ⟨_, h2, _⟩ => rw [h2] at hst; simp at hst
      | .over _, ⟨_, h2⟩ =>
        rcases h2 with ⟨_, _, _, _, ⟨h3, _⟩ | h3⟩ | ⟨_, h3 | h3⟩ <;> rw [h3] at hst <;> simp at hst
    obtain ⟨⟨v, rfl⟩, hr⟩ := hrest
    have nj : ∀ c g, s.pc c ≠ .joining g := by
      intro c g hc
      obtain ⟨_, _, h3, h4⟩ := h.joining c g hc
      exact h4 (hr h3)
    have ns : ∀ c v, s.pc c ≠ .store v := by
      intro c v hc
      obtain ⟨_, h2⟩ := h.store c v hc
      rcases h2 with h2 | h2 <;> rw [h2] at hst <;> simp at hst
    have nb : ∀ g, s.busy g ≠ true := by
      intro g hg
      obtain ⟨c, hc⟩ := h.busy g hg
      exact nj c g hc
    have allr : ∀ g, g < s.made → s.thr g = .reaped := by
      intro g hg
      by_cases e : g = s.cur
      · rw [e]; exact hr (by omega)
      · exact h.old g hg e
    split at e
    · cases e
      exact ⟨_, rfl, h⟩
    · split at e
      · cases e
        refine ⟨.due x, rfl, ?_, ?_, ?_, ?_, ?_, ?_, ?_, ?_, ?_⟩
        · intro g h1 h2
          have h1 : g < s.made + 1 := h1
          have h2 : g ≠ s.made := h2
          show set s.thr s.made _ g = _
          rw [set_ne _ _ h2]
          exact allr g (by omega)
        · intro g h1
          have h1 : s.made + 1 ≤ g := h1
          show set s.thr s.made _ g = _
          rw [set_ne _ _ (by omega)]
          exact h.new g (by omega)
        · intro _
          show s.made < s.made + 1
          omega
        · refine ⟨?_, rfl, .inl ⟨rfl, ?_, rfl⟩⟩
          · show s.made + 1 ≠ 0
            omega
          · show set s.thr s.made _ s.made = _
            rw [set_at]
        · intro c g hc; exact absurd (bc_joining.1 hc) (nj c g)
        · intro c v hc; exact absurd (bc_store.1 hc) (ns c v)
        · intro c c' v v' hc; exact absurd (bc_store.1 hc) (ns c v)
        · intro c c' g g' hc; exact absurd (bc_joining.1 hc) (nj c g)
        · intro g hg; exact absurd hg (nb g)
      · cases e
        refine ⟨.rest none, rfl, h.old, h.new, h.num, ⟨.inr rfl, hr⟩, ?_, ?_, ?_, ?_, ?_⟩
        · intro c g hc; exact absurd (bc_joining.1 hc) (nj c g)
        · intro c v hc; exact absurd (bc_store.1 hc) (ns c v)
        · intro c c' v v' hc; exact absurd (bc_store.1 hc) (ns c v)
        · intro c c' g g' hc; exact absurd (bc_joining.1 hc) (nj c g)
        · intro g hg; exact absurd hg (nb g)
  · cases e
    exact ⟨p, by cases p <;> rfl, h⟩

theorem next_nothing (p : Phase) : p.next .nothing = some p := by cases p <;> rfl

/-- The number of notifications does not matter. -/
theorem Inv.count {s : S} {p : Phase} (h : Inv s p) (n : Nat) : Inv { s with notifications := n } p where
  old := h.old
  new := h.new
  num := h.num
  cur := by
    have := h.cur
    match p, this with
    | .rest none, this => exact this
    | .rest (some v), this => exact this
    | .due x, this => exact this
    | .active, this => exact this
    | .over v, this => exact this
  joining := h.joining
  store := h.store
  one := h.one
  two := h.two
  busy := h.busy

theorem notify_inv {s : S} {p : Phase} (h : Inv s p) {s' : S} {o : Obs} (e : notify s = .ok s' o) : ∃ p', p.next o = some p' ∧ Inv s' p' := by
  unfold notify at e
  split at e
  · split at e
    · cases e
    · split at e
      · cases e
      · cases e
      · cases e
        exact ⟨p, by cases p <;> rfl, (h.count (s.notifications + 1)).broadcast⟩
  · cases e
    exact ⟨p, next_nothing p, h⟩

theorem enter_inv {s : S} {p : Phase} (h : Inv s p) {c : Nat} {f : Bool} (hi : s.pc c = .idle) {s' : S} {o : Obs} (e : enter s c f = .ok s' o) :
    ∃ p', p.next o = some p' ∧ Inv s' p' := by
  unfold enter at e
  split at e <;> cases e <;>
    exact ⟨p, by cases p <;> rfl, h.move (by rw [hi]; simp) (by rw [hi]; simp) (by simp) (by simp)⟩

theorem caller_inv {s : S} {p : Phase} (h : Inv s p) {c : Nat} {s' : S} {o : Obs} (e : caller s c = some (.ok s' o)) : ∃ p', p.next o = some p' ∧ Inv s' p' := by
  unfold caller at e
  cases hpc : s.pc c with
  | idle => rw [hpc] at e; cases e
  | waiting f => rw [hpc] at e; cases e
  | woken f =>
    rw [hpc] at e
    simp only [] at e
    split at e <;> cases e <;> exact ⟨p, next_nothing p, h.move (by rw [hpc]; simp) (by rw [hpc]; simp) (by simp) (by simp)⟩
  | late =>
    rw [hpc] at e
    cases e
    exact ⟨p, next_nothing p, h.move (by rw [hpc]; simp) (by rw [hpc]; simp) (by simp) (by simp)⟩
  | look rc =>
    rw [hpc] at e
    simp only [] at e
    split at e <;> cases e <;> exact ⟨p, next_nothing p, h.move (by rw [hpc]; simp) (by rw [hpc]; simp) (by simp) (by simp)⟩
  | call =>
    rw [hpc] at e
    simp only [] at e
    split at e
    · cases e
    · rename_i hn
      cases e
      have h1 : s.thr s.cur ≠ .reaped := fun h => hn (.inl h)
      have h2 : s.thr s.cur ≠ .none := fun h => hn (.inr (.inl h))
      have h3 : s.busy s.cur ≠ true := fun h => hn (.inr (.inr h))
      obtain ⟨_, hm⟩ := h.live h2 h1
      have ns : ∀ c v, s.pc c ≠ .store v := by
        intro c v hc
        obtain ⟨hp, _⟩ := h.store c v hc
        have := h.cur
        rw [hp] at this
        exact h1 this.2.1
      have nj : ∀ c' g, s.pc c' ≠ .joining g := by
        intro c' g hc
        obtain ⟨e1, e2, _⟩ := h.joining c' g hc
        rw [e1] at e2
        exact h3 e2
      refine ⟨p, next_nothing p, h.old, h.new, h.num, ?_, ?_, ?_, ?_, ?_, ?_⟩
      · have := h.cur
        match p, this with
        | .rest none, this => exact this
        | .rest (some v), this => exact absurd this.2.1 h1
        | .due x, this => exact this
        | .active, this => exact this
        | .over v, this => exact this
      · intro c' g hc
        have hc : set s.pc c (.joining s.cur) c' = .joining g := hc
        by_cases ec : c' = c
        · subst ec
          rw [set_at] at hc
          cases hc
          exact ⟨rfl, set_at .., hm, h1⟩
        · rw [set_ne _ _ ec] at hc
          exact absurd hc (nj c' g)
      · intro c' v hc
        have hc : set s.pc c (.joining s.cur) c' = .store v := hc
        by_cases ec : c' = c
        · subst ec
          rw [set_at] at hc
          cases hc
        · rw [set_ne _ _ ec] at hc
          exact absurd hc (ns c' v)
      · intro c' c'' v v' hc
        have hc : set s.pc c (.joining s.cur) c' = .store v := hc
        by_cases ec : c' = c
        · subst ec
          rw [set_at] at hc
          cases hc
        · rw [set_ne _ _ ec] at hc
          exact absurd hc (ns c' v)
      · intro c' c'' g g' hc hc'
        have hc : set s.pc c (.joining s.cur) c' = .joining g := hc
        have hc' : set s.pc c (.joining s.cur) c'' = .joining g' := hc'
        by_cases ec : c' = c
        · by_cases ec' : c'' = c
          · rw [ec, ec']
          · rw [set_ne _ _ ec'] at hc'
            exact absurd hc' (nj c'' g')
        · rw [set_ne _ _ ec] at hc
          exact absurd hc (nj c' g)
      · intro g hg
        have hg : set s.busy s.cur true g = true := hg
        by_cases eg : g = s.cur
        · subst eg
          exact ⟨c, set_at ..⟩
        · rw [set_ne _ _ eg] at hg
          obtain ⟨c', hc'⟩ := h.busy g hg
          exact absurd (h.joining c' g hc').1 eg
  | joining g =>
    rw [hpc] at e
    simp only [] at e
    obtain ⟨hg, hb, hm, hr⟩ := h.joining c g hpc
    subst hg
    split at e
    · rename_i v ht
      cases e
      have hp := h.phase hm
      rw [ht] at hp
      obtain ⟨rfl, hst⟩ := hp
      have ns : ∀ c v, s.pc c ≠ .store v := by
        intro c v hc
        obtain ⟨hp, _⟩ := h.store c v hc
        cases hp
      have pcj : ∀ c' g, set s.pc c (.store v) c' ≠ .joining g := by
        intro c' g hc
        by_cases ec : c' = c
        · subst ec; rw [set_at] at hc; cases hc
        · rw [set_ne _ _ ec] at hc; exact ec (h.two c' c g s.cur hc hpc)
      have pcs : ∀ c' v', set s.pc c (.store v) c' = .store v' → c' = c ∧ v' = v := by
        intro c' v' hc
        by_cases ec : c' = c
        · subst ec; rw [set_at] at hc; cases hc; exact ⟨rfl, rfl⟩
        · rw [set_ne _ _ ec] at hc; exact absurd hc (ns c' v')
      refine ⟨.rest (some v), if_pos rfl, ?_, ?_, h.num, ⟨hm, set_at .., .inr ⟨hst, c, set_at ..⟩⟩, ?_, ?_, ?_, ?_, ?_⟩
      · intro g h1 h2
        have h2 : g ≠ s.cur := h2
        show set s.thr s.cur _ g = _
        rw [set_ne _ _ h2]
        exact h.old g h1 h2
      · intro g h1
        have h1 : s.made ≤ g := h1
        have := h.num hm
        show set s.thr s.cur _ g = _
        rw [set_ne _ _ (by omega)]
        exact h.new g h1
      · intro c' g hc; exact absurd hc (pcj c' g)
      · intro c' v' hc; rw [(pcs c' v' hc).2]; exact ⟨rfl, hst⟩
      · intro c' c'' v' v'' hc hc'; rw [(pcs _ _ hc).1, (pcs _ _ hc').1]
      · intro c' c'' g g' hc; exact absurd hc (pcj c' g)
      · intro g hg
        have hg : set s.busy s.cur false g = true := hg
        by_cases eg : g = s.cur
        · subst eg; rw [set_at] at hg; cases hg
        · rw [set_ne _ _ eg] at hg
          obtain ⟨c', hc'⟩ := h.busy g hg
          exact absurd (h.joining c' g hc').1 eg
    · cases e
  | store v =>
    rw [hpc] at e
    cases e
    obtain ⟨rfl, hst⟩ := h.store c v hpc
    obtain ⟨hm, hr, _⟩ := h.cur
    have nj : ∀ c g, s.pc c ≠ .joining g := by
      intro c g hc
      exact (h.joining c g hc).2.2.2 hr
    refine ⟨_, next_nothing _, h.old, h.new, h.num, ⟨hm, hr, .inl ⟨rfl, rfl⟩⟩, ?_, ?_, ?_, ?_, ?_⟩
    · intro c' g hc
      have hc : set (broadcast s.pc) c (.last .zero) c' = .joining g := hc
      by_cases ec : c' = c
      · subst ec; rw [set_at] at hc; cases hc
      · rw [set_ne _ _ ec, bc_joining] at hc; exact absurd hc (nj c' g)
    · intro c' v' hc
      have hc : set (broadcast s.pc) c (.last .zero) c' = .store v' := hc
      by_cases ec : c' = c
      · subst ec; rw [set_at] at hc; cases hc
      · rw [set_ne _ _ ec, bc_store] at hc; exact absurd (h.one c' c v' v hc hpc) ec
    · intro c' c'' v' v'' hc
      have hc : set (broadcast s.pc) c (.last .zero) c' = .store v' := hc
      by_cases ec : c' = c
      · subst ec; rw [set_at] at hc; cases hc
      · rw [set_ne _ _ ec, bc_store] at hc; exact absurd (h.one c' c v' v hc hpc) ec
    · intro c' c'' g g' hc
      have hc : set (broadcast s.pc) c (.last .zero) c' = .joining g := hc
      by_cases ec : c' = c
      · subst ec; rw [set_at] at hc; cases hc
      · rw [set_ne _ _ ec, bc_joining] at hc; exact absurd hc (nj c' g)
    · intro g hg
      obtain ⟨c', hc'⟩ := h.busy g hg
      exact absurd hc' (nj c' g)
  | last rc =>
    rw [hpc] at e
    simp only [] at e
    split at e <;> cases e
    · exact ⟨p, next_nothing p, h.move (by rw [hpc]; simp) (by rw [hpc]; simp) (by simp) (by simp)⟩
    · exact ⟨p, by cases p <;> rfl, h.move (by rw [hpc]; simp) (by rw [hpc]; simp) (by simp) (by simp)⟩
  | take =>
    rw [hpc] at e
    cases e
    exact ⟨p, by cases p <;> rfl, h.move (by rw [hpc]; simp) (by rw [hpc]; simp) (by simp) (by simp)⟩

theorem thread_inv {s : S} {p : Phase} (h : Inv s p) {g : Nat} {s' : S} {o : Obs} (e : thread s g = some (.ok s' o)) : ∃ p', p.next o = some p' ∧ Inv s' p' := by
  unfold thread at e
  split at e
  · rename_i v n ht
    cases e
    obtain ⟨rfl, hm⟩ := h.live (g := g) (by rw [ht]; simp) (by rw [ht]; simp)
    have hp := h.phase hm
    rw [ht] at hp
    obtain ⟨rfl, hst⟩ := hp
    refine ⟨_, next_nothing _, h.go (n := s.notifications) (v := s.value) hm (by simp) (by rw [ht]; simp) (fun _ _ => bc_joining) (fun _ _ => bc_store) ⟨hm, .inl ⟨v, n, set_at .., rfl, .inr rfl⟩⟩⟩
  · rename_i v ht
    cases e
    obtain ⟨rfl, hm⟩ := h.live (g := g) (by rw [ht]; simp) (by rw [ht]; simp)
    have hp := h.phase hm
    rw [ht] at hp
    obtain ⟨rfl, hst⟩ := hp
    have hst : s.state = .exiting := by
      rcases hst with ⟨_, hst⟩ | hst
      · omega
      · exact hst
    refine ⟨_, next_nothing _, h.go (n := s.notifications) (v := s.value) (st := s.state) hm (by simp) (by rw [ht]; simp) (fun _ _ => Iff.rfl) (fun _ _ => Iff.rfl)
      ⟨hm, .inr ⟨set_at .., .inl hst⟩⟩⟩
  · cases e

/-- The invariant is kept, and only what may happen happens. -/
theorem step_inv {s : S} {p : Phase} (h : Inv s p) {l : Label} {s' : S} {o : Obs} (e : step s l = some (.ok s' o)) : ∃ p', p.next o = some p' ∧ Inv s' p' := by
  cases l with
  | start sig create x => exact start_inv h (Option.some.inj e)
  | notify => exact notify_inv h (Option.some.inj e)
  | enter c f =>
    by_cases hi : s.pc c = .idle
    · exact enter_inv h hi (Option.some.inj ((if_pos hi).symm.trans e))
    · cases (if_neg hi).symm.trans e
  | spurious c =>
    simp only [step] at e
    split at e
    · rename_i f hf
      cases e
      exact ⟨p, next_nothing p, h.move (by rw [hf]; simp) (by rw [hf]; simp) (by simp) (by simp)⟩
    · cases e
  | timeout c =>
    simp only [step] at e
    split at e
    · rename_i hf
      cases e
      exact ⟨p, next_nothing p, h.move (by rw [hf]; simp) (by rw [hf]; simp) (by simp) (by simp)⟩
    · cases e
  | caller c => exact caller_inv h e
  | begin g ok =>
    simp only [step] at e
    split at e
    · rename_i ht
      obtain ⟨rfl, hm⟩ := h.live (g := g) (by rw [ht]; simp) (by rw [ht]; simp)
      have hp := h.phase hm
      rw [ht] at hp
      obtain ⟨x, rfl, hx, hst, hv⟩ := hp
      split at e
      · cases e
        exact ⟨_, next_nothing _, h.go (n := s.notifications) (v := s.value) hm (by simp) (by rw [ht]; simp) (fun _ _ => bc_joining) (fun _ _ => bc_store)
          ⟨hm, hx, .inr ⟨rfl, set_at ..⟩⟩⟩
      · cases e
        refine ⟨.over NOVALUE, rfl, h.go (n := s.notifications) (v := s.value) (st := s.state) hm (by simp) (by rw [ht]; simp) (fun _ _ => Iff.rfl) (fun _ _ => Iff.rfl)
          ⟨hm, .inr ⟨?_, .inr hst⟩⟩⟩
        show set s.thr s.cur _ s.cur = _
        rw [set_at, hv]
    · cases e
  | function g =>
    simp only [step] at e
    split at e
    · rename_i ht
      obtain ⟨rfl, hm⟩ := h.live (g := g) (by rw [ht]; simp) (by rw [ht]; simp)
      have hp := h.phase hm
      rw [ht] at hp
      obtain ⟨x, rfl, hx, hst⟩ := hp
      cases e
      exact ⟨.active, if_pos hx.symm, h.go (n := s.notifications) (v := s.value) (st := s.state) hm (by simp) (by rw [ht]; simp) (fun _ _ => Iff.rfl) (fun _ _ => Iff.rfl)
        ⟨hm, hst, set_at ..⟩⟩
    · cases e
  | «return» g v =>
    simp only [step] at e
    split at e
    · rename_i ht
      obtain ⟨rfl, hm⟩ := h.live (g := g) (by rw [ht]; simp) (by rw [ht]; simp)
      have hp := h.phase hm
      rw [ht] at hp
      obtain ⟨rfl, hst⟩ := hp
      cases e
      exact ⟨.over v, rfl, h.go (n := s.notifications) (v := v) (st := s.state) hm (by simp) (by rw [ht]; simp) (fun _ _ => Iff.rfl) (fun _ _ => Iff.rfl)
        ⟨hm, .inl ⟨none, 1, set_at .., rfl, .inl ⟨hst, by omega⟩⟩⟩⟩
    · cases e
  | exit g v =>
    simp only [step] at e
    split at e
    · rename_i ht
      obtain ⟨rfl, hm⟩ := h.live (g := g) (by rw [ht]; simp) (by rw [ht]; simp)
      have hp := h.phase hm
      rw [ht] at hp
      obtain ⟨rfl, hst⟩ := hp
      cases e
      exact ⟨.over v, rfl, h.go (n := s.notifications) (v := v) (st := s.state) hm (by simp) (by rw [ht]; simp) (fun _ _ => Iff.rfl) (fun _ _ => Iff.rfl)
        ⟨hm, .inl ⟨some v, 2, set_at .., rfl, .inl ⟨hst, by omega⟩⟩⟩⟩
    · cases e
  | cancel g =>
    simp only [step] at e
    split at e
    · rename_i ht
      obtain ⟨rfl, hm⟩ := h.live (g := g) (by rw [ht]; simp) (by rw [ht]; simp)
      have hp := h.phase hm
      rw [ht] at hp
      obtain ⟨rfl, hst⟩ := hp
      cases e
      exact ⟨.over NOVALUE, rfl, h.go (n := s.notifications) (v := s.value) (st := s.state) hm (by simp) (by rw [ht]; simp) (fun _ _ => Iff.rfl) (fun _ _ => Iff.rfl)
        ⟨hm, .inl ⟨some NOVALUE, 1, set_at .., rfl, .inl ⟨hst, by omega⟩⟩⟩⟩
    · cases e
  | thread g => exact thread_inv h e
  | notifications g =>
    simp only [step] at e
    split at e
    · cases e
      exact ⟨p, by cases p <;> rfl, (h.count 0).broadcast⟩
    · cases e

end Diminuto.Thread
