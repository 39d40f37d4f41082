import Verif.ThreadLemmas2

/-!
# Lemmas: executions of the thread object
-/

namespace Diminuto.Thread

/-- An execution. -/
inductive Path : S → List Label → S → List Obs → Prop
  | nil (s : S) : Path s [] s []
  | cons {s s1 s' : S} {l : Label} {ls : List Label} {o : Obs} {h : List Obs} : step s l = some (.ok s1 o) → Path s1 ls s' h → Path s (l :: ls) s' (o :: h)

/-- With one more at the front. -/
def Run.pre (h0 : List Obs) : Run → Run
  | .ok s h => .ok s (h0 ++ h)
  | .ub h => .ub (h0 ++ h)

theorem run_pre (ls : List Label) : ∀ (s : S) (h0 h : List Obs), run s (h0 ++ h) ls = (run s h ls).map (Run.pre h0) := by
  induction ls with
  | nil => intro s o h; rfl
  | cons l ls ih =>
    intro s h0 h
    simp only [run]
    split
    · rfl
    · rfl
    · rw [List.append_assoc]; exact ih ..

theorem run_cons (s : S) (l : Label) (ls : List Label) :
    run s [] (l :: ls) = match step s l with
      | none => none
      | some .ub => some (.ub [])
      | some (.ok s' o) => (run s' [] ls).map (Run.pre [o]) := by
  show (match step s l with | none => none | some Out.ub => some (Run.ub []) | some (Out.ok s' o) => run s' ([] ++ [o]) ls) = _
  split
  · rfl
  · rfl
  · exact run_pre ls _ [_] []

theorem path_of_run (ls : List Label) : ∀ {s s' : S} {h : List Obs}, run s [] ls = some (.ok s' h) → Path s ls s' h := by
  induction ls with
  | nil => intro s s' h e; cases e; exact .nil s
  | cons l ls ih =>
    intro s s' h e
    rw [run_cons] at e
    split at e
    · cases e
    · cases e
    · rename_i s1 o hs
      cases hr : run s1 [] ls with
      | none => rw [hr] at e; cases e
      | some r =>
        rw [hr] at e
        cases r with
        | ok s2 h2 => cases e; exact .cons hs (ih hr)
        | ub h2 => cases e

theorem path_of_ub (ls : List Label) : ∀ {s : S} {h : List Obs}, run s [] ls = some (.ub h) → ∃ ls1 l s', Path s ls1 s' h ∧ step s' l = some .ub := by
  induction ls with
  | nil => intro s h e; cases e
  | cons l ls ih =>
    intro s h e
    rw [run_cons] at e
    split at e
    · cases e
    · rename_i hs
      cases e
      exact ⟨[], l, s, .nil s, hs⟩
    · rename_i s1 o hs
      cases hr : run s1 [] ls with
      | none => rw [hr] at e; cases e
      | some r =>
        rw [hr] at e
        cases r with
        | ok s2 h2 => cases e
        | ub h2 =>
          cases e
          obtain ⟨ls1, l', s', hp, hu⟩ := ih hr
          exact ⟨l :: ls1, l', s', .cons hs hp, hu⟩

theorem path_inv {s s' : S} {ls : List Label} {h : List Obs} (e : Path s ls s' h) : ∀ {p : Phase}, Inv s p → ∃ p', p.after h = some p' ∧ Inv s' p' := by
  induction e with
  | nil s => intro p hi; exact ⟨p, rfl, hi⟩
  | cons hs _ ih =>
    intro p hi
    obtain ⟨p1, h1, hi1⟩ := step_inv hi hs
    obtain ⟨p2, h2, hi2⟩ := ih hi1
    exact ⟨p2, by simp only [Phase.after, h1]; exact h2, hi2⟩

/-- The caller that is joining after a history. -/
def Who.after (w : Who) : List Obs → Who
  | [] => w
  | o :: h => Who.after (w.next o) h

theorem good_all {p : Phase} {w : Who} {o : Obs} {h : List Obs} (hg : Good p w o) (h1 : ∀ p', p.next o = some p' → AllRight p' (w.next o) h) : AllRight p w (o :: h) := by
  cases o <;> exact ⟨hg, h1⟩

theorem path_strict {s s' : S} {ls : List Label} {h : List Obs} (e : Path s ls s' h) : ∀ {p : Phase} {w : Who}, Inv s p → Strict s p w → alone w h = true →
    ∃ p', p.after h = some p' ∧ Inv s' p' ∧ Strict s' p' (w.after h) ∧ AllRight p w h := by
  induction e with
  | nil s => intro p w hi hs _; exact ⟨p, rfl, hi, hs, trivial⟩
  | @cons s s1 s' l ls o h hst _ ih =>
    intro p w hi hs ha
    rw [alone_cons, Bool.and_eq_true] at ha
    obtain ⟨p1, h1, hi1⟩ := step_inv hi hst
    obtain ⟨hs1, hg⟩ := step_strict hi hs hst h1 hi1 ha.1
    obtain ⟨p2, h2, hi2, hs2, hr⟩ := ih hi1 hs1 ha.2
    refine ⟨p2, by simp only [Phase.after, h1]; exact h2, hi2, hs2, good_all hg fun p' hp' => ?_⟩
    cases h1.symm.trans hp'
    exact hr

theorem strict_init : Strict init (.rest none) none := fun _ => rfl

theorem alone_append (h h' : List Obs) : ∀ w, alone w (h ++ h') = (alone w h && alone (w.after h) h') := by
  induction h with
  | nil => intro w; rfl
  | cons o h ih =>
    intro w
    show alone w (o :: (h ++ h')) = _
    rw [alone_cons, alone_cons, ih, Bool.and_assoc]
    rfl

theorem path_append {s s1 s' : S} {ls ls' : List Label} {h h' : List Obs} (e : Path s ls s1 h) (e' : Path s1 ls' s' h') : Path s (ls ++ ls') s' (h ++ h') := by
  induction e with
  | nil s => exact e'
  | cons hs _ ih => exact .cons hs (ih e')

/-- The number of notifications after a step. -/
theorem step_count {s s' : S} {l : Label} {o : Obs} (e : step s l = some (.ok s' o)) (h : List Obs) : pending s.notifications (o :: h) = pending s'.notifications h := by
  cases l with
  | start sig create x =>
    replace e := Option.some.inj e
    unfold start at e
    split at e
    · split at e
      · cases e; rfl
      · split at e <;> cases e <;> rfl
    · cases e; rfl
  | notify =>
    replace e := Option.some.inj e
    unfold notify at e
    split at e
    · split at e
      · cases e
      · split at e <;> cases e
        rfl
    · cases e; rfl
  | enter c f =>
    by_cases hi : s.pc c = .idle
    · replace e := Option.some.inj ((if_pos hi).symm.trans e)
      unfold enter at e
      split at e <;> cases e <;> rfl
    · cases (if_neg hi).symm.trans e
  | spurious c => simp only [step] at e; split at e <;> cases e; rfl
  | timeout c => simp only [step] at e; split at e <;> cases e; rfl
  | caller c =>
    have e : caller s c = _ := e
    unfold caller at e
    split at e
    · split at e <;> cases e <;> rfl
    · cases e; rfl
    · split at e <;> cases e <;> rfl
    · split at e <;> cases e; rfl
    · split at e <;> cases e; rfl
    · cases e; rfl
    · split at e <;> cases e <;> rfl
    · cases e; rfl
    · cases e
  | begin g ok =>
    simp only [step] at e
    split at e
    · split at e <;> cases e <;> rfl
    · cases e
  | function g => simp only [step] at e; split at e <;> cases e; rfl
  | «return» g v => simp only [step] at e; split at e <;> cases e; rfl
  | exit g v => simp only [step] at e; split at e <;> cases e; rfl
  | cancel g => simp only [step] at e; split at e <;> cases e; rfl
  | thread g => have e : thread s g = _ := e; unfold thread at e; split at e <;> cases e <;> rfl
  | notifications g =>
    simp only [step] at e
    split at e
    · cases e; exact if_pos rfl
    · cases e

theorem path_count {s s' : S} {ls : List Label} {h : List Obs} (e : Path s ls s' h) : pending s.notifications h = some s'.notifications := by
  induction e with
  | nil s => rfl
  | cons hs _ ih => rw [step_count hs, ih]

/-- The thread has been set up, or has not yet. -/
def Whole (s : S) : Prop := s.state = .started → ∀ v, s.thr s.cur ≠ .ended v

/-- The place of a caller, by how much there still is to do. -/
def rank : Pc → Nat
  | .idle => 0
  | .take => 1
  | .last _ => 2
  | .store _ => 3
  | .joining _ => 4
  | .call => 5
  | .look _ => 6
  | .late => 7
  | .woken _ => 7
  | .waiting _ => 8

theorem rank_bc (pc : Nat → Pc) (c : Nat) : rank (broadcast pc c) ≤ rank (pc c) := by
  unfold broadcast
  split
  · rename_i h; rw [h]; simp [rank]
  · exact Nat.le_refl _

theorem step_whole {s s' : S} {p : Phase} (hi : Inv s p) (hw : Whole s) {l : Label} {o : Obs} (e : step s l = some (.ok s' o)) (hb : o ≠ .broken) : Whole s' := by
  cases l with
  | start sig create x =>
    replace e := Option.some.inj e
    unfold start at e
    split at e
    · split at e
      · cases e; exact hw
      · split at e <;> cases e
        · intro _ v hv
          have hv : set s.thr s.made .created s.made = .ended v := hv
          rw [set_at] at hv
          cases hv
        · intro h; cases h
    · cases e; exact hw
  | notify =>
    replace e := Option.some.inj e
    unfold notify at e
    split at e
    · split at e
      · cases e
      · split at e <;> cases e
        exact hw
    · cases e; exact hw
  | enter c f =>
    by_cases hi : s.pc c = .idle
    · replace e := Option.some.inj ((if_pos hi).symm.trans e)
      unfold enter at e
      split at e <;> cases e <;> exact hw
    · cases (if_neg hi).symm.trans e
  | spurious c => simp only [step] at e; split at e <;> cases e; exact hw
  | timeout c => simp only [step] at e; split at e <;> cases e; exact hw
  | caller c =>
    have e : caller s c = _ := e
    unfold caller at e
    split at e
    · split at e <;> cases e <;> exact hw
    · cases e; exact hw
    · split at e <;> cases e <;> exact hw
    · split at e <;> cases e; exact hw
    · rename_i g hg
      split at e <;> cases e
      intro hst v hv
      have hv : set s.thr g .reaped s.cur = .ended v := hv
      by_cases ec : s.cur = g
      · rw [ec, set_at] at hv; cases hv
      · rw [set_ne _ _ ec] at hv; exact hw hst v hv
    · cases e; intro h; cases h
    · split at e <;> cases e <;> exact hw
    · cases e; exact hw
    · cases e
  | begin g ok =>
    simp only [step] at e
    split at e
    · split at e
      · cases e; intro h; cases h
      · cases e; exact absurd rfl hb
    · cases e
  | function g =>
    simp only [step] at e
    split at e <;> cases e
    intro hst v hv
    have hv : set s.thr g .inside s.cur = .ended v := hv
    by_cases ec : s.cur = g
    · rw [ec, set_at] at hv; cases hv
    · rw [set_ne _ _ ec] at hv; exact hw hst v hv
  | «return» g v =>
    simp only [step] at e
    split at e <;> cases e
    intro hst v hv
    have hv : set s.thr g (.leaving none 1) s.cur = .ended v := hv
    by_cases ec : s.cur = g
    · rw [ec, set_at] at hv; cases hv
    · rw [set_ne _ _ ec] at hv; exact hw hst v hv
  | exit g v =>
    simp only [step] at e
    split at e <;> cases e
    intro hst v' hv
    have hv : set s.thr g (.leaving (some v) 2) s.cur = .ended v' := hv
    by_cases ec : s.cur = g
    · rw [ec, set_at] at hv; cases hv
    · rw [set_ne _ _ ec] at hv; exact hw hst v' hv
  | cancel g =>
    simp only [step] at e
    split at e <;> cases e
    intro hst v hv
    have hv : set s.thr g (.leaving (some NOVALUE) 1) s.cur = .ended v := hv
    by_cases ec : s.cur = g
    · rw [ec, set_at] at hv; cases hv
    · rw [set_ne _ _ ec] at hv; exact hw hst v hv
  | thread g =>
    have e : thread s g = _ := e
    unfold thread at e
    split at e
    · cases e; intro h; cases h
    · rename_i x ht
      cases e
      intro hst v hv
      have hst : s.state = .started := hst
      obtain ⟨rfl, hm⟩ := hi.live (g := g) (by rw [ht]; simp) (by rw [ht]; simp)
      have := hi.phase hm
      rw [ht] at this
      obtain ⟨_, ⟨h1, h2⟩ | h1⟩ := this
      · omega
      · rw [h1] at hst; cases hst
    · cases e
  | notifications g => simp only [step] at e; split at e <;> cases e; exact hw

theorem path_whole {s s' : S} {ls : List Label} {h : List Obs} (e : Path s ls s' h) : ∀ {p : Phase} {w : Who}, Inv s p → Strict s p w → alone w h = true →
    Whole s → .broken ∉ h → Whole s' := by
  induction e with
  | nil s => intro p w _ _ _ hw _; exact hw
  | @cons s s1 s' l ls o h hst _ ih =>
    intro p w hi hs ha hw hb
    rw [alone_cons, Bool.and_eq_true] at ha
    obtain ⟨p1, h1, hi1⟩ := step_inv hi hst
    obtain ⟨hs1, hg⟩ := step_strict hi hs hst h1 hi1 ha.1
    refine ih hi1 hs1 ha.2 (step_whole hi hw hst ?_) ?_
    · intro e; apply hb; rw [e]; exact List.mem_cons_self
    · intro h; exact hb (List.mem_cons_of_mem _ h)

theorem whole_init : Whole init := by intro h; cases h

/-- With the thread ended, a caller that is joining can go on. -/
theorem progress {s : S} {p : Phase} {w : Who} (hi : Inv s p) (hs : Strict s p w) (hw : Whole s) {c : Nat} (hc : s.pc c ≠ .idle) (hg : (s.thr s.cur).gone) :
    ∃ s' o, step s (.caller c) = some (.ok s' o) := by
  obtain ⟨f, rfl, hidle, ha⟩ := hs.who hc
  have hub : step s (.caller c) ≠ some .ub := by
    intro hu
    have hu' : caller s c = some .ub := hu
    unfold caller at hu'
    cases hpc : s.pc c with
    | call =>
      rw [hpc] at hu' ha
      simp only [] at hu'
      split at hu'
      · rename_i hn
        have hm : s.made ≠ 0 := by
          have := hi.cur
          match p, this with
          | .rest v, _ => exact absurd rfl (ha.2 v)
          | .due _, ⟨h1, _⟩ => exact h1
          | .active, ⟨h1, _⟩ => exact h1
          | .over _, ⟨h1, _⟩ => exact h1
        have hph := hi.phase hm
        rcases hn with hn | hn | hn
        · rw [hn] at hph
          rcases hph with ⟨rfl, _⟩ | ⟨v, rfl, _⟩
          · exact ha.2 _ rfl
          · exact ha.2 _ rfl
        · rw [hn] at hph; exact hph
        · obtain ⟨c', hc'⟩ := hi.busy _ hn
          by_cases ec : c' = c
          · subst ec; rw [hpc] at hc'; cases hc'
          · rw [hidle c' ec] at hc'; cases hc'
      · cases hu'
    | idle => rw [hpc] at hu'; cases hu'
    | waiting f => rw [hpc] at hu'; cases hu'
    | woken f => rw [hpc] at hu'; simp only [] at hu'; split at hu' <;> cases hu'
    | late => rw [hpc] at hu'; cases hu'
    | look rc => rw [hpc] at hu'; simp only [] at hu'; split at hu' <;> cases hu'
    | joining g => rw [hpc] at hu'; simp only [] at hu'; split at hu' <;> cases hu'
    | store v => rw [hpc] at hu'; cases hu'
    | last rc => rw [hpc] at hu'; simp only [] at hu'; split at hu' <;> cases hu'
    | take => rw [hpc] at hu'; cases hu'
  have hsome : caller s c ≠ none := by
    intro hn
    unfold caller at hn
    cases hpc : s.pc c with
    | call => rw [hpc] at hn; simp only [] at hn; split at hn <;> cases hn
    | idle => exact hc hpc
    | waiting f' =>
      rw [hpc] at ha
      obtain ⟨_, hp, hst⟩ := ha
      have hm : s.made ≠ 0 := by
        have := hi.cur
        match p, this with
        | .rest v, _ => exact absurd rfl (hp v)
        | .due _, ⟨h1, _⟩ => exact h1
        | .active, ⟨h1, _⟩ => exact h1
        | .over _, ⟨h1, _⟩ => exact h1
      have hph := hi.phase hm
      match ht : s.thr s.cur with
      | .ended v =>
        rw [ht] at hph
        obtain ⟨rfl, h1 | h1⟩ := hph
        · rw [h1] at hst; simp at hst
        · exact hw h1 v ht
      | .reaped =>
        rw [ht] at hph
        rcases hph with ⟨rfl, _⟩ | ⟨v, rfl, _⟩
        · exact hp _ rfl
        · exact hp _ rfl
      | .none => rw [ht] at hg; exact hg
      | .created => rw [ht] at hg; exact hg
      | .begun => rw [ht] at hg; exact hg
      | .inside => rw [ht] at hg; exact hg
      | .leaving _ _ => rw [ht] at hg; exact hg
    | woken f => rw [hpc] at hn; simp only [] at hn; split at hn <;> cases hn
    | late => rw [hpc] at hn; cases hn
    | look rc => rw [hpc] at hn; simp only [] at hn; split at hn <;> cases hn
    | joining g =>
      obtain ⟨rfl, _, _, hr⟩ := hi.joining c g hpc
      rw [hpc] at hn
      simp only [] at hn
      match ht : s.thr s.cur with
      | .ended v => rw [ht] at hn; cases hn
      | .reaped => exact hr ht
      | .none => rw [ht] at hg; exact hg
      | .created => rw [ht] at hg; exact hg
      | .begun => rw [ht] at hg; exact hg
      | .inside => rw [ht] at hg; exact hg
      | .leaving _ _ => rw [ht] at hg; exact hg
    | store v => rw [hpc] at hn; cases hn
    | last rc => rw [hpc] at hn; simp only [] at hn; split at hn <;> cases hn
    | take => rw [hpc] at hn; cases hn
  match h : step s (.caller c) with
  | none => exact absurd h hsome
  | some .ub => exact absurd h hub
  | some (.ok s' o) => exact ⟨s', o, rfl⟩

/-- With the thread ended, a step of a caller that is joining brings it nearer to its end. -/
theorem nearer {s s' : S} {p : Phase} {w : Who} (hi : Inv s p) (hs : Strict s p w) (hw : Whole s) {c : Nat} (hg : (s.thr s.cur).gone) {o : Obs}
    (e : step s (.caller c) = some (.ok s' o)) : rank (s'.pc c) < rank (s.pc c) := by
  have e : caller s c = _ := e
  unfold caller at e
  cases hpc : s.pc c with
  | idle => rw [hpc] at e; cases e
  | waiting f => rw [hpc] at e; cases e
  | woken f' =>
    obtain ⟨f, rfl, hidle, ha⟩ := hs.who (c := c) (by rw [hpc]; simp)
    rw [hpc] at e ha
    simp only [] at e
    split at e
    · cases e; show rank (set s.pc c _ c) < _; rw [set_at]; simp [rank]
    · rename_i hst
      exfalso
      have hp := ha.2
      have hm : s.made ≠ 0 := by
        have := hi.cur
        match p, this with
        | .rest v, _ => exact absurd rfl (hp v)
        | .due _, ⟨h1, _⟩ => exact h1
        | .active, ⟨h1, _⟩ => exact h1
        | .over _, ⟨h1, _⟩ => exact h1
      have hph := hi.phase hm
      match ht : s.thr s.cur with
      | .ended v =>
        rw [ht] at hph
        obtain ⟨rfl, h1 | h1⟩ := hph
        · exact hst h1
        · exact hw h1 v ht
      | .reaped =>
        rw [ht] at hph
        rcases hph with ⟨rfl, _⟩ | ⟨v, rfl, _⟩
        · exact hp _ rfl
        · exact hp _ rfl
      | .none => rw [ht] at hg; exact hg
      | .created => rw [ht] at hg; exact hg
      | .begun => rw [ht] at hg; exact hg
      | .inside => rw [ht] at hg; exact hg
      | .leaving _ _ => rw [ht] at hg; exact hg
  | late => rw [hpc] at e; cases e; show rank (set s.pc c _ c) < _; rw [set_at]; simp [rank]
  | look rc =>
    rw [hpc] at e
    simp only [] at e
    split at e <;> cases e <;> (show rank (set s.pc c _ c) < _) <;> rw [set_at] <;> simp [rank]
  | call =>
    rw [hpc] at e
    simp only [] at e
    split at e <;> cases e
    show rank (set s.pc c _ c) < _
    rw [set_at]
    simp [rank]
  | joining g =>
    rw [hpc] at e
    simp only [] at e
    split at e <;> cases e
    show rank (set s.pc c _ c) < _
    rw [set_at]
    simp [rank]
  | store v =>
    rw [hpc] at e
    cases e
    show rank (set _ c _ c) < _
    rw [set_at]
    simp [rank]
  | last rc =>
    rw [hpc] at e
    simp only [] at e
    split at e <;> cases e <;> (show rank (set s.pc c _ c) < _) <;> rw [set_at] <;> simp [rank]
  | take => rw [hpc] at e; cases e; show rank (set s.pc c _ c) < _; rw [set_at]; simp [rank]

theorem rank_idle (q : Pc) : rank q = 0 ↔ q = .idle := by cases q <;> simp [rank]

/-- Other steps, while a caller is joining and the thread has ended. -/
theorem others {s s' : S} {p : Phase} {w : Who} (hi : Inv s p) (hs : Strict s p w) {c : Nat} (hc : s.pc c ≠ .idle) (hg : (s.thr s.cur).gone) {l : Label} {o : Obs}
    (e : step s l = some (.ok s' o)) (ha : allowed w o = true) :
    (s'.thr s'.cur).gone ∧ (l ≠ .caller c → rank (s'.pc c) ≤ rank (s.pc c) ∧ s'.pc c ≠ .idle) ∧ (s'.pc c = .idle → ∃ rc v, o = .returned c rc v) := by
  obtain ⟨f, rfl, hidle, hat⟩ := hs.who hc
  have hbc : broadcast s.pc c ≠ .idle := by intro h; exact hc (bc_idle.1 h)
  have hthr : ∀ g q, s.thr g = q → q ≠ .none → ¬ q.gone → False := by
    intro g q h1 h2 h3
    by_cases hr : q = .reaped
    · subst hr; exact h3 trivial
    · obtain ⟨rfl, _⟩ := hi.live (g := g) (by rw [h1]; exact h2) (by rw [h1]; exact hr)
      rw [h1] at hg
      exact h3 hg
  cases l with
  | start sig create x =>
    replace e := Option.some.inj e
    unfold start at e
    split at e
    · split at e
      · cases e; exact ⟨hg, fun _ => ⟨Nat.le_refl _, hc⟩, fun h => absurd h hc⟩
      · split at e <;> cases e <;> cases ha
    · cases e; exact ⟨hg, fun _ => ⟨Nat.le_refl _, hc⟩, fun h => absurd h hc⟩
  | notify =>
    replace e := Option.some.inj e
    unfold notify at e
    split at e
    · split at e
      · cases e
      · split at e <;> cases e
        exact ⟨hg, fun _ => ⟨rank_bc .., hbc⟩, fun h => absurd h hbc⟩
    · cases e; exact ⟨hg, fun _ => ⟨Nat.le_refl _, hc⟩, fun h => absurd h hc⟩
  | enter c' f' =>
    by_cases hi : s.pc c' = .idle
    · replace e := Option.some.inj ((if_pos hi).symm.trans e)
      unfold enter at e
      split at e <;> cases e <;> cases ha
    · cases (if_neg hi).symm.trans e
  | spurious c' =>
    simp only [step] at e
    split at e
    · rename_i f' hf
      cases e
      by_cases ec : c' = c
      · subst ec
        have h1 : set s.pc c' (.woken f') c' = .woken f' := set_at ..
        refine ⟨hg, fun _ => ⟨?_, ?_⟩, fun h => ?_⟩
        · show rank (set s.pc c' (.woken f') c') ≤ _; rw [h1, hf]; simp [rank]
        · show set s.pc c' (.woken f') c' ≠ _; rw [h1]; simp
        · have h : set s.pc c' (.woken f') c' = .idle := h
          rw [h1] at h; cases h
      · rw [hidle c' ec] at hf; cases hf
    · cases e
  | timeout c' =>
    simp only [step] at e
    split at e
    · rename_i hf
      cases e
      by_cases ec : c' = c
      · subst ec
        have h1 : set s.pc c' .late c' = .late := set_at ..
        refine ⟨hg, fun _ => ⟨?_, ?_⟩, fun h => ?_⟩
        · show rank (set s.pc c' .late c') ≤ _; rw [h1, hf]; simp [rank]
        · show set s.pc c' .late c' ≠ _; rw [h1]; simp
        · have h : set s.pc c' .late c' = .idle := h
          rw [h1] at h; cases h
      · rw [hidle c' ec] at hf; cases hf
    · cases e
  | caller c' =>
    have e : caller s c' = _ := e
    by_cases ec : c' = c
    · subst ec
      refine ⟨?_, fun h => absurd rfl h, ?_⟩
      · unfold caller at e
        split at e
        · split at e <;> cases e <;> exact hg
        · cases e; exact hg
        · split at e <;> cases e <;> exact hg
        · split at e <;> cases e; exact hg
        · rename_i g hpc
          obtain ⟨rfl, _⟩ := hi.joining _ _ hpc
          split at e <;> cases e
          show Thr.gone (set s.thr s.cur .reaped s.cur)
          rw [set_at]
          trivial
        · cases e; exact hg
        · split at e <;> cases e <;> exact hg
        · cases e; exact hg
        · cases e
      · intro hd
        unfold caller at e
        have key : ∀ {pc : Nat → Pc} {q : Pc}, s'.pc = set pc c' q → q ≠ .idle → False := by
          intro pc q h1 h2
          rw [h1, set_at] at hd
          exact h2 hd
        split at e
        · split at e <;> cases e <;> exact (key rfl (by simp)).elim
        · cases e; exact (key rfl (by simp)).elim
        · split at e <;> cases e <;> exact (key rfl (by simp)).elim
        · split at e <;> cases e; exact (key rfl (by simp)).elim
        · split at e <;> cases e; exact (key rfl (by simp)).elim
        · cases e; exact (key rfl (by simp)).elim
        · split at e <;> cases e
          · exact (key rfl (by simp)).elim
          · exact ⟨_, _, rfl⟩
        · cases e; exact ⟨_, _, rfl⟩
        · cases e
    · unfold caller at e
      rw [hidle c' ec] at e
      cases e
  | begin g ok =>
    simp only [step] at e
    split at e
    · rename_i ht; exact (hthr g _ ht (by simp) (by intro h; exact h)).elim
    · cases e
  | function g =>
    simp only [step] at e
    split at e
    · rename_i ht; exact (hthr g _ ht (by simp) (by intro h; exact h)).elim
    · cases e
  | «return» g v =>
    simp only [step] at e
    split at e
    · rename_i ht; exact (hthr g _ ht (by simp) (by intro h; exact h)).elim
    · cases e
  | exit g v =>
    simp only [step] at e
    split at e
    · rename_i ht; exact (hthr g _ ht (by simp) (by intro h; exact h)).elim
    · cases e
  | cancel g =>
    simp only [step] at e
    split at e
    · rename_i ht; exact (hthr g _ ht (by simp) (by intro h; exact h)).elim
    · cases e
  | thread g =>
    have e : thread s g = _ := e
    unfold thread at e
    split at e
    · rename_i ht; exact (hthr g _ ht (by simp) (by intro h; exact h)).elim
    · rename_i ht; exact (hthr g _ ht (by simp) (by intro h; exact h)).elim
    · cases e
  | notifications g =>
    simp only [step] at e
    split at e
    · rename_i ht; exact (hthr g _ ht (by simp) (by intro h; exact h)).elim
    · cases e

theorem steps_other {c : Nat} {l : Label} (h : l ≠ .caller c) (ls : List Label) : steps c (l :: ls) = steps c ls := by
  cases l with
  | caller c' =>
    show (if c' = c then 1 else 0) + _ = _
    rw [if_neg (fun e => h (by rw [e])), Nat.zero_add]
  | _ => rfl

/-- A caller that goes on comes to its end. -/
theorem returns {s s' : S} {ls : List Label} {h : List Obs} (e : Path s ls s' h) : ∀ {p : Phase} {w : Who} {c : Nat}, Inv s p → Strict s p w → alone w h = true →
    Whole s → .broken ∉ h → s.pc c ≠ .idle → (s.thr s.cur).gone → rank (s.pc c) ≤ steps c ls → ∃ rc v, .returned c rc v ∈ h := by
  induction e with
  | nil s =>
    intro p w c _ _ _ _ _ hc _ hr
    exact absurd ((rank_idle _).1 (Nat.le_zero.1 hr)) hc
  | @cons s s1 s' l ls o h hst _ ih =>
    intro p w c hi hs ha hw hb hc hg hr
    rw [alone_cons, Bool.and_eq_true] at ha
    obtain ⟨p1, h1, hi1⟩ := step_inv hi hst
    obtain ⟨hs1, _⟩ := step_strict hi hs hst h1 hi1 ha.1
    have hw1 := step_whole hi hw hst (by intro e; apply hb; rw [e]; exact List.mem_cons_self)
    have hb1 : .broken ∉ h := by intro h; exact hb (List.mem_cons_of_mem _ h)
    obtain ⟨hg1, h2, h3⟩ := others hi hs hc hg hst ha.1
    by_cases hd : s1.pc c = .idle
    · obtain ⟨rc, v, rfl⟩ := h3 hd
      exact ⟨rc, v, List.mem_cons_self⟩
    · have hr1 : rank (s1.pc c) ≤ steps c ls := by
        by_cases el : l = .caller c
        · subst el
          have := nearer hi hs hw hg hst
          have hr : _ ≤ (if c = c then 1 else 0) + steps c ls := hr
          rw [if_pos rfl] at hr
          omega
        · have := h2 el
          rw [steps_other el] at hr
          omega
      obtain ⟨rc, v, hm⟩ := ih hi1 hs1 ha.2 hw1 hb1 hd hg1 hr1
      exact ⟨rc, v, List.mem_cons_of_mem _ hm⟩

theorem tsteps_other {g : Nat} {l : Label} (h : l ≠ .thread g) (ls : List Label) : tsteps g (l :: ls) = tsteps g ls := by
  cases l with
  | thread g' =>
    show (if g' = g then 1 else 0) + _ = _
    rw [if_neg (fun e => h (by rw [e])), Nat.zero_add]
  | _ => rfl

/-- How a thread that is leaving, or gone, can change. -/
theorem leaves {s s' : S} {p : Phase} (hi : Inv s p) {g : Nat} (hg : s.thr g ≠ .none) {l : Label} {o : Obs} (e : step s l = some (.ok s' o)) :
    ((s.thr g).gone → (s'.thr g).gone) ∧
    (∀ v n, s.thr g = .leaving v n → if l = .thread g then (match n with | 0 => (s'.thr g).gone | n + 1 => s'.thr g = .leaving v n) else s'.thr g = .leaving v n) := by
  have same : s'.thr g = s.thr g → (∀ v n, s.thr g = .leaving v n → l ≠ .thread g) → ((s.thr g).gone → (s'.thr g).gone) ∧
    (∀ v n, s.thr g = .leaving v n → if l = .thread g then (match n with | 0 => (s'.thr g).gone | n + 1 => s'.thr g = .leaving v n) else s'.thr g = .leaving v n) := by
    intro h1 h2
    refine ⟨fun h => by rw [h1]; exact h, fun v n h => ?_⟩
    rw [if_neg (h2 v n h), h1]
    exact h
  have other : ∀ g' t, s.thr g' ≠ s.thr g → s'.thr = set s.thr g' t → (∀ v n, s.thr g = .leaving v n → l ≠ .thread g) → ((s.thr g).gone → (s'.thr g).gone) ∧
    (∀ v n, s.thr g = .leaving v n → if l = .thread g then (match n with | 0 => (s'.thr g).gone | n + 1 => s'.thr g = .leaving v n) else s'.thr g = .leaving v n) := by
    intro g' t h1 h2 h3
    refine same ?_ h3
    rw [h2, set_ne]
    intro e
    rw [e] at h1
    exact h1 rfl
  cases l with
  | start sig create x =>
    replace e := Option.some.inj e
    unfold start at e
    split at e
    · split at e
      · cases e; exact same rfl (by simp)
      · split at e <;> cases e
        · exact other s.made .created (by rw [hi.new _ (Nat.le_refl _)]; exact fun h => hg h.symm) rfl (by simp)
        · exact same rfl (by simp)
    · cases e; exact same rfl (by simp)
  | notify =>
    replace e := Option.some.inj e
    unfold notify at e
    split at e
    · split at e
      · cases e
      · split at e <;> cases e
        exact same rfl (by simp)
    · cases e; exact same rfl (by simp)
  | enter c' f' =>
    by_cases hi : s.pc c' = .idle
    · replace e := Option.some.inj ((if_pos hi).symm.trans e)
      unfold enter at e
      split at e <;> cases e <;> exact same rfl (by simp)
    · cases (if_neg hi).symm.trans e
  | spurious c => simp only [step] at e; split at e <;> cases e; exact same rfl (by simp)
  | timeout c => simp only [step] at e; split at e <;> cases e; exact same rfl (by simp)
  | caller c =>
    have e : caller s c = _ := e
    unfold caller at e
    split at e
    · split at e <;> cases e <;> exact same rfl (by simp)
    · cases e; exact same rfl (by simp)
    · split at e <;> cases e <;> exact same rfl (by simp)
    · split at e <;> cases e; exact same rfl (by simp)
    · rename_i g' hpc
      split at e <;> cases e
      rename_i v ht
      by_cases eg : g = g'
      · subst eg
        refine ⟨fun _ => ?_, fun v' n h => ?_⟩
        · show Thr.gone (set s.thr g .reaped g)
          rw [set_at]
          trivial
        · rw [ht] at h; cases h
      · exact same (set_ne _ _ eg) (by simp)
    · cases e; exact same rfl (by simp)
    · split at e <;> cases e <;> exact same rfl (by simp)
    · cases e; exact same rfl (by simp)
    · cases e
  | begin g' ok =>
    simp only [step] at e
    split at e
    · rename_i ht
      by_cases eg : g = g'
      · subst eg
        refine ⟨fun h => ?_, fun v n h => ?_⟩ <;> rw [ht] at h <;> cases h
      · split at e <;> cases e <;> exact same (set_ne _ _ eg) (by simp)
    · cases e
  | function g' =>
    simp only [step] at e
    split at e
    · rename_i ht
      by_cases eg : g = g'
      · subst eg
        refine ⟨fun h => ?_, fun v n h => ?_⟩ <;> rw [ht] at h <;> cases h
      · cases e; exact same (set_ne _ _ eg) (by simp)
    · cases e
  | «return» g' v =>
    simp only [step] at e
    split at e
    · rename_i ht
      by_cases eg : g = g'
      · subst eg
        refine ⟨fun h => ?_, fun v n h => ?_⟩ <;> rw [ht] at h <;> cases h
      · cases e; exact same (set_ne _ _ eg) (by simp)
    · cases e
  | exit g' v =>
    simp only [step] at e
    split at e
    · rename_i ht
      by_cases eg : g = g'
      · subst eg
        refine ⟨fun h => ?_, fun v n h => ?_⟩ <;> rw [ht] at h <;> cases h
      · cases e; exact same (set_ne _ _ eg) (by simp)
    · cases e
  | cancel g' =>
    simp only [step] at e
    split at e
    · rename_i ht
      by_cases eg : g = g'
      · subst eg
        refine ⟨fun h => ?_, fun v n h => ?_⟩ <;> rw [ht] at h <;> cases h
      · cases e; exact same (set_ne _ _ eg) (by simp)
    · cases e
  | thread g' =>
    have e : thread s g' = _ := e
    unfold thread at e
    split at e
    · rename_i v n ht
      by_cases eg : g = g'
      · subst eg
        cases e
        refine ⟨fun h => by rw [ht] at h; exact h.elim, fun v' n' h => ?_⟩
        rw [ht] at h
        cases h
        rw [if_pos rfl]
        exact set_at ..
      · cases e
        refine same (set_ne _ _ eg) (fun v n h => ?_)
        intro h; cases h; exact eg rfl
    · rename_i v ht
      by_cases eg : g = g'
      · subst eg
        cases e
        refine ⟨fun h => by rw [ht] at h; exact h.elim, fun v' n' h => ?_⟩
        rw [ht] at h
        cases h
        rw [if_pos rfl]
        show Thr.gone (set s.thr g _ g)
        rw [set_at]
        trivial
      · cases e
        refine same (set_ne _ _ eg) (fun v n h => ?_)
        intro h; cases h; exact eg rfl
    · cases e
  | notifications g => simp only [step] at e; split at e <;> cases e; exact same rfl (by simp)

theorem path_gone {s s' : S} {ls : List Label} {h : List Obs} (e : Path s ls s' h) : ∀ {p : Phase} {g : Nat}, Inv s p → (s.thr g).gone → (s'.thr g).gone := by
  induction e with
  | nil s => intro p g _ h; exact h
  | cons hst _ ih =>
    intro p g hi hg
    obtain ⟨p1, h1, hi1⟩ := step_inv hi hst
    exact ih hi1 ((leaves hi (by intro h; rw [h] at hg; exact hg) hst).1 hg)

/-- A thread that goes on comes to its end. -/
theorem ends {s s' : S} {ls : List Label} {h : List Obs} (e : Path s ls s' h) : ∀ {p : Phase} {g n : Nat} {v : Option Nat}, Inv s p → s.thr g = .leaving v n →
    n + 1 ≤ tsteps g ls → (s'.thr g).gone := by
  induction e with
  | nil s => intro p g n v _ _ h; exact absurd h (by simp [tsteps])
  | @cons s s1 s' l ls o h hst hp ih =>
    intro p g n v hi ht hn
    obtain ⟨p1, h1, hi1⟩ := step_inv hi hst
    have hl := (leaves hi (by rw [ht]; simp) hst).2 v n ht
    by_cases el : l = .thread g
    · subst el
      rw [if_pos rfl] at hl
      have hn : _ ≤ (if g = g then 1 else 0) + tsteps g ls := hn
      rw [if_pos rfl] at hn
      cases n with
      | zero => exact path_gone hp hi1 hl
      | succ n => exact ih hi1 hl (by omega)
    · rw [if_neg el] at hl
      rw [tsteps_other el] at hn
      exact ih hi1 hl hn

/-- The states that a step may change. -/
theorem step_edge {s s' : S} {p : Phase} {w : Who} (hi : Inv s p) (hs : Strict s p w) {l : Label} {o : Obs} (e : step s l = some (.ok s' o)) :
    s'.state = s.state ∨ (s'.state = .started ∨ s'.state = .failed) ∧ (s.state = .initialized ∨ s.state = .joined ∨ s.state = .failed) ∨
    s.state = .started ∧ s'.state = .running ∨ s.state = .running ∧ s'.state = .exiting ∨ s.state = .exiting ∧ s'.state = .joined := by
  cases l with
  | start sig create x =>
    replace e := Option.some.inj e
    unfold start at e
    split at e
    · rename_i hst
      split at e
      · cases e; exact .inl rfl
      · split at e <;> cases e
        · exact .inr (.inl ⟨.inl rfl, hst⟩)
        · exact .inr (.inl ⟨.inr rfl, hst⟩)
    · cases e; exact .inl rfl
  | notify =>
    replace e := Option.some.inj e
    unfold notify at e
    split at e
    · split at e
      · cases e
      · split at e <;> cases e
        exact .inl rfl
    · cases e; exact .inl rfl
  | enter c' f' =>
    by_cases hi : s.pc c' = .idle
    · replace e := Option.some.inj ((if_pos hi).symm.trans e)
      unfold enter at e
      split at e <;> cases e <;> exact .inl rfl
    · cases (if_neg hi).symm.trans e
  | spurious c => simp only [step] at e; split at e <;> cases e; exact .inl rfl
  | timeout c => simp only [step] at e; split at e <;> cases e; exact .inl rfl
  | caller c =>
    have e : caller s c = _ := e
    unfold caller at e
    split at e
    · split at e <;> cases e <;> exact .inl rfl
    · cases e; exact .inl rfl
    · split at e <;> cases e <;> exact .inl rfl
    · split at e <;> cases e; exact .inl rfl
    · split at e <;> cases e; exact .inl rfl
    · rename_i v hpc
      cases e
      obtain ⟨f, rfl, _, ha⟩ := hs.who (c := c) (by rw [hpc]; simp)
      rw [hpc] at ha
      exact .inr (.inr (.inr (.inr ⟨ha, rfl⟩)))
    · split at e <;> cases e <;> exact .inl rfl
    · cases e; exact .inl rfl
    · cases e
  | begin g ok =>
    simp only [step] at e
    split at e
    · rename_i ht
      obtain ⟨rfl, hm⟩ := hi.live (g := g) (by rw [ht]; simp) (by rw [ht]; simp)
      have hph := hi.phase hm
      rw [ht] at hph
      obtain ⟨x, rfl, _, hst, _⟩ := hph
      split at e <;> cases e
      · exact .inr (.inr (.inl ⟨hst, rfl⟩))
      · exact .inl rfl
    · cases e
  | function g => simp only [step] at e; split at e <;> cases e; exact .inl rfl
  | «return» g v => simp only [step] at e; split at e <;> cases e; exact .inl rfl
  | exit g v => simp only [step] at e; split at e <;> cases e; exact .inl rfl
  | cancel g => simp only [step] at e; split at e <;> cases e; exact .inl rfl
  | thread g =>
    have e : thread s g = _ := e
    unfold thread at e
    split at e
    · rename_i v n ht
      obtain ⟨rfl, hm⟩ := hi.live (g := g) (by rw [ht]; simp) (by rw [ht]; simp)
      have hph := hi.phase hm
      rw [ht] at hph
      cases e
      obtain ⟨_, ⟨h1, _⟩ | h1⟩ := hph
      · exact .inr (.inr (.inr (.inl ⟨h1, rfl⟩)))
      · exact .inl h1.symm
    · cases e; exact .inl rfl
    · cases e
  | notifications g => simp only [step] at e; split at e <;> cases e; exact .inl rfl

/-! ## What goes wrong -/

theorem path_avoid {P : S → Prop} {Q : Label → Prop} {c : Nat} (hP : ∀ s l s' o, P s → Q l → step s l = some (.ok s' o) → P s' ∧ ∀ rc v, o ≠ .returned c rc v)
    {s s' : S} {ls : List Label} {h : List Obs} (e : Path s ls s' h) : P s → (∀ l ∈ ls, Q l) → ∀ rc v, .returned c rc v ∉ h := by
  induction e with
  | nil s => intro _ _ rc v h; cases h
  | @cons s s1 s' l ls o h hst _ ih =>
    intro hp hq rc v hm
    obtain ⟨h1, h2⟩ := hP _ _ _ _ hp (hq l List.mem_cons_self) hst
    rcases List.mem_cons.1 hm with hm | hm
    · exact h2 rc v hm.symm
    · exact ih h1 (fun l hl => hq l (List.mem_cons_of_mem _ hl)) rc v hm

/-- The caller has not been woken up, or in vain. -/
def Asleep (q : Pc) : Prop := q = .waiting true ∨ q = .woken true

theorem asleep_bc {pc : Nat → Pc} {c : Nat} (h : Asleep (pc c)) : Asleep (broadcast pc c) := by
  rcases h with h | h
  · right; unfold broadcast; rw [h]
  · right; unfold broadcast; rw [h]

theorem asleep_set {pc : Nat → Pc} {c c' : Nat} {q : Pc} (h : Asleep (pc c)) (hq : c' = c → Asleep q) : Asleep (set pc c' q c) := by
  by_cases e : c = c'
  · subst e; rw [set_at]; exact hq rfl
  · rw [set_ne _ _ e]; exact h

/-- There is no thread, and the caller waits for one. -/
def Stuck (c : Nat) (s : S) : Prop := s.state = .joined ∧ (∀ g, s.thr g = .none ∨ s.thr g = .reaped) ∧ Asleep (s.pc c)

theorem stuck_step {c : Nat} (s : S) (l : Label) (s' : S) (o : Obs) (h : Stuck c s) (hl : ∀ a b x, l ≠ .start a b x) (e : step s l = some (.ok s' o)) :
    Stuck c s' ∧ ∀ rc v, o ≠ .returned c rc v := by
  obtain ⟨h1, h2, h3⟩ := h
  have ht : ∀ g t, s.thr g = t → t ≠ .none → t ≠ .reaped → False := by
    intro g t h4 h5 h6
    rcases h2 g with h | h
    · exact h5 (h4.symm.trans h)
    · exact h6 (h4.symm.trans h)
  cases l with
  | start a b x => exact absurd rfl (hl a b x)
  | notify =>
    replace e := Option.some.inj e
    unfold notify at e
    rw [if_neg (by rw [h1]; simp)] at e
    cases e
    exact ⟨⟨h1, h2, h3⟩, by simp⟩
  | enter c' f =>
    by_cases hi : s.pc c' = .idle
    · replace e := Option.some.inj ((if_pos hi).symm.trans e)
      have hne : c' = c → False := by
        intro e; subst e
        rcases h3 with h | h <;> rw [hi] at h <;> cases h
      unfold enter at e
      split at e <;> cases e <;> exact ⟨⟨h1, h2, asleep_set h3 fun e => (hne e).elim⟩, by simp⟩
    · cases (if_neg hi).symm.trans e
  | spurious c' =>
    simp only [step] at e
    split at e
    · rename_i f hf
      cases e
      refine ⟨⟨h1, h2, asleep_set h3 fun e => ?_⟩, by simp⟩
      subst e
      rcases h3 with h | h <;> rw [hf] at h <;> cases h
      exact .inr rfl
    · cases e
  | timeout c' =>
    simp only [step] at e
    split at e
    · rename_i hf
      cases e
      refine ⟨⟨h1, h2, asleep_set h3 fun e => ?_⟩, by simp⟩
      subst e
      rcases h3 with h | h <;> rw [hf] at h <;> cases h
    · cases e
  | caller c' =>
    have e : caller s c' = _ := e
    by_cases ec : c' = c
    · subst ec
      unfold caller at e
      rcases h3 with h | h
      · rw [h] at e; cases e
      · rw [h] at e
        simp only [] at e
        rw [if_neg (by rw [h1]; simp)] at e
        cases e
        exact ⟨⟨h1, h2, .inl (set_at ..)⟩, by simp⟩
    · unfold caller at e
      split at e
      · split at e <;> cases e <;> exact ⟨⟨h1, h2, asleep_set h3 fun e => absurd e ec⟩, by simp⟩
      · cases e; exact ⟨⟨h1, h2, asleep_set h3 fun e => absurd e ec⟩, by simp⟩
      · split at e <;> cases e <;> exact ⟨⟨h1, h2, asleep_set h3 fun e => absurd e ec⟩, by simp⟩
      · split at e <;> cases e; exact ⟨⟨h1, h2, asleep_set h3 fun e => absurd e ec⟩, by simp⟩
      · split at e
        · rename_i hg; exact (ht _ _ hg (by simp) (by simp)).elim
        · cases e
      · cases e; exact ⟨⟨rfl, h2, asleep_set (asleep_bc h3) fun e => absurd e ec⟩, by simp⟩
      · split at e <;> cases e
        · exact ⟨⟨h1, h2, asleep_set h3 fun e => absurd e ec⟩, by simp⟩
        · exact ⟨⟨h1, h2, asleep_set h3 fun e => absurd e ec⟩, by simp⟩
      · cases e; exact ⟨⟨h1, h2, asleep_set h3 fun e => absurd e ec⟩, by simp [ec]⟩
      · cases e
  | begin g ok => simp only [step] at e; split at e; (rename_i h; exact (ht _ _ h (by simp) (by simp)).elim); cases e
  | function g => simp only [step] at e; split at e; (rename_i h; exact (ht _ _ h (by simp) (by simp)).elim); cases e
  | «return» g v => simp only [step] at e; split at e; (rename_i h; exact (ht _ _ h (by simp) (by simp)).elim); cases e
  | exit g v => simp only [step] at e; split at e; (rename_i h; exact (ht _ _ h (by simp) (by simp)).elim); cases e
  | cancel g => simp only [step] at e; split at e; (rename_i h; exact (ht _ _ h (by simp) (by simp)).elim); cases e
  | thread g =>
    have e : thread s g = _ := e
    unfold thread at e
    split at e
    · rename_i h; exact (ht _ _ h (by simp) (by simp)).elim
    · rename_i h; exact (ht _ _ h (by simp) (by simp)).elim
    · cases e
  | notifications g => simp only [step] at e; split at e; (rename_i h; exact (ht _ _ h (by simp) (by simp)).elim); cases e

/-- The thread could not be set up, and the caller waits for it. -/
def Broken (c : Nat) (s : S) : Prop :=
  s.state = .started ∧ (∀ g, s.thr g = .none ∨ ∃ v, s.thr g = .ended v) ∧ Asleep (s.pc c) ∧ ∀ c', s.pc c' ≠ .call ∧ (∀ g, s.pc c' ≠ .joining g) ∧ ∀ v, s.pc c' ≠ .store v

theorem calm_bc {pc : Nat → Pc} (h : ∀ c', pc c' ≠ .call ∧ (∀ g, pc c' ≠ .joining g) ∧ ∀ v, pc c' ≠ .store v) (c' : Nat) :
    broadcast pc c' ≠ .call ∧ (∀ g, broadcast pc c' ≠ .joining g) ∧ ∀ v, broadcast pc c' ≠ .store v :=
  ⟨fun e => (h c').1 ((bc_of (by simp)).1 e), fun g e => (h c').2.1 g (bc_joining.1 e), fun v e => (h c').2.2 v (bc_store.1 e)⟩

theorem calm_set {pc : Nat → Pc} (h : ∀ c', pc c' ≠ .call ∧ (∀ g, pc c' ≠ .joining g) ∧ ∀ v, pc c' ≠ .store v) (c : Nat) {q : Pc}
    (hq : q ≠ .call ∧ (∀ g, q ≠ .joining g) ∧ ∀ v, q ≠ .store v) (c' : Nat) : set pc c q c' ≠ .call ∧ (∀ g, set pc c q c' ≠ .joining g) ∧ ∀ v, set pc c q c' ≠ .store v := by
  by_cases e : c' = c
  · subst e; rw [set_at]; exact hq
  · rw [set_ne _ _ e]; exact h c'

theorem broken_step {c : Nat} (s : S) (l : Label) (s' : S) (o : Obs) (h : Broken c s) (e : step s l = some (.ok s' o)) : Broken c s' ∧ ∀ rc v, o ≠ .returned c rc v := by
  obtain ⟨h1, h2, h3, h4⟩ := h
  have ht : ∀ g t, s.thr g = t → t ≠ .none → (∀ v, t ≠ .ended v) → False := by
    intro g t h4 h5 h6
    rcases h2 g with h | ⟨v, h⟩
    · exact h5 (h4.symm.trans h)
    · exact h6 v (h4.symm.trans h)
  cases l with
  | start a b x =>
    replace e := Option.some.inj e
    unfold start at e
    rw [if_neg (by rw [h1]; simp)] at e
    cases e
    exact ⟨⟨h1, h2, h3, h4⟩, by simp⟩
  | notify =>
    replace e := Option.some.inj e
    unfold notify at e
    split at e
    · split at e
      · cases e
      · split at e <;> cases e
        exact ⟨⟨h1, h2, asleep_bc h3, calm_bc h4⟩, by simp⟩
    · cases e; exact ⟨⟨h1, h2, h3, h4⟩, by simp⟩
  | enter c' f =>
    by_cases hi : s.pc c' = .idle
    · replace e := Option.some.inj ((if_pos hi).symm.trans e)
      have hne : c' = c → False := by
        intro e; subst e
        rcases h3 with h | h <;> rw [hi] at h <;> cases h
      unfold enter at e
      split at e <;> cases e <;> exact ⟨⟨h1, h2, asleep_set h3 fun e => (hne e).elim, calm_set h4 _ (by simp)⟩, by simp⟩
    · cases (if_neg hi).symm.trans e
  | spurious c' =>
    simp only [step] at e
    split at e
    · rename_i f hf
      cases e
      refine ⟨⟨h1, h2, asleep_set h3 fun e => ?_, calm_set h4 _ (by simp)⟩, by simp⟩
      subst e
      rcases h3 with h | h <;> rw [hf] at h <;> cases h
      exact .inr rfl
    · cases e
  | timeout c' =>
    simp only [step] at e
    split at e
    · rename_i hf
      cases e
      refine ⟨⟨h1, h2, asleep_set h3 fun e => ?_, calm_set h4 _ (by simp)⟩, by simp⟩
      subst e
      rcases h3 with h | h <;> rw [hf] at h <;> cases h
    · cases e
  | caller c' =>
    have e : caller s c' = _ := e
    by_cases ec : c' = c
    · subst ec
      unfold caller at e
      rcases h3 with h | h
      · rw [h] at e; cases e
      · rw [h] at e
        simp only [] at e
        rw [if_neg (by rw [h1]; simp)] at e
        cases e
        exact ⟨⟨h1, h2, .inl (set_at ..), calm_set h4 _ (by simp)⟩, by simp⟩
    · unfold caller at e
      split at e
      · split at e <;> cases e <;> exact ⟨⟨h1, h2, asleep_set h3 fun e => absurd e ec, calm_set h4 _ (by simp)⟩, by simp⟩
      · cases e; exact ⟨⟨h1, h2, asleep_set h3 fun e => absurd e ec, calm_set h4 _ (by simp)⟩, by simp⟩
      · rw [if_neg (by rw [h1]; simp)] at e
        cases e
        exact ⟨⟨h1, h2, asleep_set h3 fun e => absurd e ec, calm_set h4 _ (by simp)⟩, by simp⟩
      · rename_i h; exact absurd h (h4 c').1
      · rename_i h; exact absurd h ((h4 c').2.1 _)
      · rename_i h; exact absurd h ((h4 c').2.2 _)
      · split at e <;> cases e
        · exact ⟨⟨h1, h2, asleep_set h3 fun e => absurd e ec, calm_set h4 _ (by simp)⟩, by simp⟩
        · exact ⟨⟨h1, h2, asleep_set h3 fun e => absurd e ec, calm_set h4 _ (by simp)⟩, by simp [ec]⟩
      · cases e; exact ⟨⟨h1, h2, asleep_set h3 fun e => absurd e ec, calm_set h4 _ (by simp)⟩, by simp [ec]⟩
      · cases e
  | begin g ok => simp only [step] at e; split at e; (rename_i h; exact (ht _ _ h (by simp) (by simp)).elim); cases e
  | function g => simp only [step] at e; split at e; (rename_i h; exact (ht _ _ h (by simp) (by simp)).elim); cases e
  | «return» g v => simp only [step] at e; split at e; (rename_i h; exact (ht _ _ h (by simp) (by simp)).elim); cases e
  | exit g v => simp only [step] at e; split at e; (rename_i h; exact (ht _ _ h (by simp) (by simp)).elim); cases e
  | cancel g => simp only [step] at e; split at e; (rename_i h; exact (ht _ _ h (by simp) (by simp)).elim); cases e
  | thread g =>
    have e : thread s g = _ := e
    unfold thread at e
    split at e
    · rename_i h; exact (ht _ _ h (by simp) (by simp)).elim
    · rename_i h; exact (ht _ _ h (by simp) (by simp)).elim
    · cases e
  | notifications g => simp only [step] at e; split at e; (rename_i h; exact (ht _ _ h (by simp) (by simp)).elim); cases e

/-- Too many notifications. -/
theorem run_notify (n : Nat) : ∀ s : S, s.state = .started → s.thr s.cur = .created → s.notifications + n = 2 ^ 31 - 1 →
    run s [] (List.replicate (n + 1) .notify) = some (.ub (List.replicate n .notified)) := by
  induction n with
  | zero =>
    intro s h1 h2 h3
    have : step s .notify = some .ub := by
      show some (notify s) = _
      unfold notify
      rw [if_pos (.inl h1), if_pos (by omega)]
    show run s [] [.notify] = some (.ub [])
    rw [run_cons, this]
  | succ n ih =>
    intro s h1 h2 h3
    have : step s .notify = some (.ok { s with notifications := s.notifications + 1, pc := broadcast s.pc } .notified) := by
      show some (notify s) = _
      unfold notify
      rw [if_pos (.inl h1), if_neg (by omega)]
      simp only [h2]
    rw [List.replicate_succ, run_cons, this]
    show (run _ [] _).map _ = _
    rw [ih { s with notifications := s.notifications + 1, pc := broadcast s.pc } h1 h2 (by show s.notifications + 1 + n = _; omega)]
    rfl

end Diminuto.Thread
