import Verif.ModsetSpec
import Verif.ModulatorProps

/-!
# Lemmas for changing the duty cycle of a modulator that runs
-/

namespace Diminuto.Modset

open Diminuto.Modulator (counts)

theorem wanted_append (first : Nat) (a b : List Deed) : wanted first (a ++ b) = wanted (wanted first a) b := by
  induction a generalizing first with
  | nil => rfl
  | cons x a ih => cases x <;> simp [wanted, ih]

/-- What holds in every state that is reached. -/
structure Good (first : Nat) (s : State) : Prop where
  /-- What is to be taken over is what has been asked for last. -/
  pending : s.m.set = true → (s.m.ton, s.m.toff) = counts (wanted first s.log)
  /-- What is in effect is what has been asked for last. -/
  effect : s.m.set = false → (s.m.on, s.m.off) = counts (wanted first s.log)
  /-- What has been taken over is what had been asked for last. -/
  took : ∀ pre on off post, s.log = pre ++ .took on off :: post → (on, off) = counts (wanted first pre)
  /-- Who waits has asked for something and not been told, and it has been taken over or is to be. -/
  waits : ∀ t, t ∈ s.blocked ∨ t ∈ s.woken → ∃ pre d mid, s.log = pre ++ .asked t d true :: mid ∧ Quiet t mid ∧ (s.m.set = false → ∃ on off, .took on off ∈ mid)
  /-- Who has been told has asked for something that has been taken over. -/
  told : ∀ pre t post, s.log = pre ++ .returned t :: post → ∃ pre' d mid, pre = pre' ++ .asked t d true :: mid ∧ Quiet t mid ∧ ∃ on off, .took on off ∈ mid
  /-- Nobody waits twice. -/
  nodup : (s.blocked ++ s.woken).Nodup
  /-- Counts are at most 255. -/
  small : s.m.cycle ≤ 255 ∧ s.m.on ≤ 255 ∧ s.m.off ≤ 255 ∧ s.m.ton ≤ 255 ∧ s.m.toff ≤ 255

/-- Where an element of a list with one more at the end is. -/
theorem split_snoc {α : Type} {l : List α} {x : α} {pre : List α} {y : α} {post : List α} (h : l ++ [x] = pre ++ y :: post) :
    (∃ post', post = post' ++ [x] ∧ l = pre ++ y :: post') ∨ (post = [] ∧ x = y ∧ l = pre) := by
  rcases List.eq_nil_or_concat post with rfl | ⟨p, z, rfl⟩
  · right
    have := List.append_inj' h rfl
    exact ⟨rfl, by simpa using this.2, this.1⟩
  · left
    rw [List.concat_eq_append] at *
    have h' : l ++ [x] = (pre ++ y :: p) ++ [z] := by rw [h]; simp
    have := List.append_inj' h' rfl
    refine ⟨p, ?_, this.1⟩
    have hx : x = z := by simpa using this.2
    rw [hx]

theorem counts_small (d : Nat) (h : d ≤ 255) : (counts d).1 ≤ 255 ∧ (counts d).2 ≤ 255 := by
  unfold counts
  simp only []
  split
  · exact ⟨h, by show 255 - d ≤ 255; omega⟩
  · split
    · exact ⟨h, by show 255 - d ≤ 255; omega⟩
    · have := Modulator.factor_preserves_ratio d (255 - d)
      obtain ⟨_, _, _, h4, h5⟩ := this
      exact ⟨Nat.le_trans h4 h, Nat.le_trans h5 (by omega)⟩

theorem init_good (first : Nat) (h : first ≤ 255) : Good first (init first) where
  pending := fun _ => rfl
  effect := fun h => nomatch h
  took := fun pre on off post h => by simp [init] at h
  waits := fun t h => by simp [init] at h
  told := fun pre t post h => by simp [init] at h
  nodup := List.nodup_nil
  small := ⟨by show 0 ≤ 255; decide, by show 0 ≤ 255; decide, by show 255 ≤ 255; decide, (counts_small first h).1, (counts_small first h).2⟩

theorem mem_signal (w t : Nat) (s : State) : (t ∈ (signal w s).blocked ∨ t ∈ (signal w s).woken) → t ∈ s.blocked ∨ t ∈ s.woken := by
  unfold signal
  split
  · exact id
  · rename_i u hu
    rintro (h | h)
    · exact Or.inl (List.mem_of_mem_erase h)
    · rcases List.mem_cons.mp h with rfl | h
      · exact Or.inl (List.mem_of_getElem? hu)
      · exact Or.inr h

theorem signal_m (w : Nat) (s : State) : (signal w s).m = s.m ∧ (signal w s).log = s.log ∧ (signal w s).armed = s.armed := by
  unfold signal
  split <;> exact ⟨rfl, rfl, rfl⟩

/-- What a firing does to the counts. -/
theorem callback_fields (m : Modulator.State) :
    (m.cycle > 0 → Modulator.callback m = { m with cycle := m.cycle - 1 }) ∧
    (m.cycle = 0 → m.set = true → (Modulator.callback m).set = false ∧ (Modulator.callback m).on = m.ton ∧ (Modulator.callback m).off = m.toff ∧ (Modulator.callback m).ton = m.ton ∧ (Modulator.callback m).toff = m.toff ∧
      ((Modulator.callback m).cycle = m.ton ∨ (Modulator.callback m).cycle = m.toff)) ∧
    (m.cycle = 0 → m.set = false → (Modulator.callback m).set = false ∧ (Modulator.callback m).on = m.on ∧ (Modulator.callback m).off = m.off ∧ (Modulator.callback m).ton = m.ton ∧ (Modulator.callback m).toff = m.toff ∧
      ((Modulator.callback m).cycle = m.on ∨ (Modulator.callback m).cycle = m.off)) := by
  refine ⟨fun h => by unfold Modulator.callback; rw [if_pos h], fun h hs => ?_, fun h hs => ?_⟩
  all_goals
    unfold Modulator.callback
    rw [if_neg (by omega)]
    simp only [hs]
    cases m.state
    all_goals (repeat' split) <;> simp_all

theorem quiet_snoc {t : Nat} {l : List Deed} {x : Deed} (h : Quiet t l) (h1 : x ≠ .returned t) (h2 : ∀ d w, x ≠ .asked t d w) : Quiet t (l ++ [x]) := by
  intro y hy
  rcases List.mem_append.mp hy with hy | hy
  · exact h y hy
  · rw [List.mem_singleton.mp hy]; exact ⟨h1, h2⟩

/-- Threads that are woken wait no longer, and are otherwise the same. -/
theorem perm_wake {l w : List Nat} {t : Nat} (h : t ∈ l) : (l.erase t ++ t :: w).Perm (l ++ w) := by
  have h1 : (l.erase t ++ t :: w).Perm (t :: (l.erase t ++ w)) := List.perm_middle
  have h2 : (t :: (l.erase t ++ w)).Perm (l ++ w) := (List.perm_cons_erase h).symm.append_right w
  exact h1.trans h2

theorem perm_signal (w : Nat) (s : State) : ((signal w s).blocked ++ (signal w s).woken).Perm (s.blocked ++ s.woken) := by
  unfold signal
  split
  · exact List.Perm.refl _
  · rename_i u hu
    exact perm_wake (List.mem_of_getElem? hu)

theorem step_good (first : Nat) {s s' : State} {e : Event} (h : Good first s) (he : ∀ t d, e = .set t d → d ≤ 255) (hs : step s e = some s') : Good first s' := by
  cases e with
  | start => cases hs; exact ⟨h.pending, h.effect, h.took, h.waits, h.told, h.nodup, h.small⟩
  | stop => cases hs; exact ⟨h.pending, h.effect, h.took, h.waits, h.told, h.nodup, h.small⟩
  | spurious t =>
    unfold step at hs
    simp only [] at hs
    split at hs
    · rename_i hm
      cases hs
      have hp := perm_wake (w := s.woken) hm
      refine ⟨h.pending, h.effect, h.took, fun u hu => h.waits u ?_, h.told, hp.nodup_iff.mpr h.nodup, h.small⟩
      exact List.mem_append.mp (hp.mem_iff.mp (List.mem_append.mpr hu))
    · exact (nomatch hs)
  | retry t =>
    unfold step at hs
    simp only [] at hs
    split at hs
    · rename_i hm
      split at hs
      · rename_i hset
        cases hs
        have hp : (t :: s.blocked ++ s.woken.erase t).Perm (s.blocked ++ s.woken) :=
          (List.perm_middle (l₁ := s.blocked)).symm.trans ((List.perm_cons_erase hm).symm.append_left s.blocked)
        refine ⟨h.pending, h.effect, h.took, fun u hu => h.waits u ?_, h.told, hp.nodup_iff.mpr h.nodup, h.small⟩
        exact List.mem_append.mp (hp.mem_iff.mp (List.mem_append.mpr hu))
      · rename_i hset
        have hset : s.m.set = false := by simpa using hset
        cases hs
        have hw : ∀ f : Nat, wanted f (s.log ++ [.returned t]) = wanted f s.log := fun f => by rw [wanted_append]; rfl
        have hsub : (s.blocked ++ s.woken.erase t).Nodup := h.nodup.sublist (List.Sublist.append_left List.erase_sublist _)
        refine ⟨fun hh => by rw [hset] at hh; exact (nomatch hh), fun _ => by show (s.m.on, s.m.off) = counts (wanted first (s.log ++ [.returned t])); rw [hw]; exact h.effect hset, ?_, ?_, ?_, hsub, h.small⟩
        · intro pre on off post hl
          rcases split_snoc hl with ⟨p, _, hl⟩ | ⟨_, hx, _⟩
          · exact h.took _ _ _ _ hl
          · exact (nomatch hx)
        · intro u hu
          have hne : u ≠ t := by
            rintro rfl
            have hnd := List.nodup_append.mp h.nodup
            rcases hu with hu | hu
            · exact hnd.2.2 u hu u hm rfl
            · exact (List.Nodup.not_mem_erase hnd.2.1) hu
          obtain ⟨pre, d, mid, h1, h2, h3⟩ := h.waits u (hu.imp id List.mem_of_mem_erase)
          refine ⟨pre, d, mid ++ [.returned t], by show s.log ++ _ = _; rw [h1]; simp, quiet_snoc h2 (by intro hh; cases hh; exact hne rfl) (fun _ _ hh => nomatch hh), fun hf => ?_⟩
          obtain ⟨on, off, h4⟩ := h3 hf
          exact ⟨on, off, List.mem_append_left _ h4⟩
        · intro pre u post hl
          rcases split_snoc hl with ⟨p, _, hl⟩ | ⟨_, hx, hl2⟩
          · exact h.told _ _ _ hl
          · cases hx
            obtain ⟨pre', d, mid, h1, h2, h3⟩ := h.waits t (Or.inr hm)
            exact ⟨pre', d, mid, hl2 ▸ h1, h2, h3 hset⟩
    · exact (nomatch hs)
  | set t d =>
    have hd := counts_small d (he t d rfl)
    unfold step at hs
    simp only [] at hs
    split at hs
    · exact (nomatch hs)
    · rename_i hn
      have hn := not_or.mp hn
      cases hs
      have hlog : ∀ s'' : State, s''.m = Modulator.set s.m d → s''.log = s.log ++ [Deed.asked t d s.armed] → (s''.blocked ++ s''.woken).Nodup →
          (∀ u, u ∈ s''.blocked ∨ u ∈ s''.woken → (u ∈ s.blocked ∨ u ∈ s.woken) ∨ u = t ∧ s.armed = true) → Good first s'' := by
        intro s'' hm hl hnd hmem
        have hw : wanted first s''.log = d := by rw [hl, wanted_append]; rfl
        refine ⟨fun _ => by rw [hm, hw]; rfl, fun hh => by rw [hm] at hh; exact (nomatch hh), ?_, ?_, ?_, hnd, by rw [hm]; exact ⟨h.small.1, h.small.2.1, h.small.2.2.1, hd.1, hd.2⟩⟩
        · intro pre on off post hl'
          rw [hl] at hl'
          rcases split_snoc hl' with ⟨p, _, hl'⟩ | ⟨_, hx, _⟩
          · exact h.took _ _ _ _ hl'
          · exact (nomatch hx)
        · intro u hu
          rcases hmem u hu with hu | ⟨rfl, ha⟩
          · have hne : t ≠ u := by
              rintro rfl
              rcases hu with hu | hu
              · exact hn.1 hu
              · exact hn.2 hu
            obtain ⟨pre, d', mid, h1, h2, h3⟩ := h.waits u hu
            refine ⟨pre, d', mid ++ [.asked t d s.armed], by rw [hl, h1]; simp, quiet_snoc h2 (fun hh => nomatch hh) (fun _ _ hh => by cases hh; exact hne rfl), fun hf => by rw [hm] at hf; exact (nomatch hf)⟩
          · exact ⟨s.log, d, [], by rw [hl, ha], fun _ hx => (nomatch hx), fun hf => by rw [hm] at hf; exact (nomatch hf)⟩
        · intro pre u post hl'
          rw [hl] at hl'
          rcases split_snoc hl' with ⟨p, _, hl'⟩ | ⟨_, hx, _⟩
          · exact h.told _ _ _ hl'
          · exact (nomatch hx)
      by_cases ha : s.armed = true
      · rw [if_pos ha]
        refine hlog _ rfl rfl ?_ ?_
        · show (t :: s.blocked ++ s.woken).Nodup
          exact List.nodup_cons.mpr ⟨fun hx => (List.mem_append.mp hx).elim hn.1 hn.2, h.nodup⟩
        · intro u hu
          rcases hu with hu | hu
          · rcases List.mem_cons.mp hu with rfl | hu
            · exact Or.inr ⟨rfl, ha⟩
            · exact Or.inl (Or.inl hu)
          · exact Or.inl (Or.inr hu)
      · rw [if_neg ha]
        exact hlog _ rfl rfl h.nodup fun u hu => Or.inl hu
  | fire w =>
    unfold step at hs
    simp only [] at hs
    split at hs
    · cases hs
      obtain ⟨c1, c2, c3⟩ := callback_fields s.m
      have hsm := h.small
      by_cases hc : s.m.cycle = 0
      · cases hset : s.m.set with
        | true =>
          rw [if_pos ⟨hc, rfl⟩]
          obtain ⟨k1, k2, k3, k4, k5, k6⟩ := c2 hc hset
          generalize hq : ({ m := Modulator.callback s.m, armed := s.armed, blocked := s.blocked, woken := s.woken, log := s.log ++ [Deed.took s.m.ton s.m.toff] } : State) = q
          obtain ⟨g1, g2, g3⟩ := signal_m w q
          have hqm : q.m = Modulator.callback s.m := by rw [← hq]
          have hql : q.log = s.log ++ [Deed.took s.m.ton s.m.toff] := by rw [← hq]
          have hp := perm_signal w q
          have hp' : (q.blocked ++ q.woken) = (s.blocked ++ s.woken) := by rw [← hq]
          rw [hp'] at hp
          have hw : wanted first (signal w q).log = wanted first s.log := by rw [g2, hql, wanted_append]; rfl
          refine ⟨fun hh => by rw [g1, hqm, k1] at hh; exact (nomatch hh), fun _ => by rw [g1, hqm, k2, k3, hw]; exact h.pending hset, ?_, ?_, ?_, hp.nodup_iff.mpr h.nodup, ?_⟩
          · intro pre on off post hl
            rw [g2, hql] at hl
            rcases split_snoc hl with ⟨p, _, hl⟩ | ⟨_, hx, hl2⟩
            · exact h.took _ _ _ _ hl
            · cases hx
              rw [← hl2]
              exact h.pending hset
          · intro u hu
            have hu' := List.mem_append.mp (hp.mem_iff.mp (List.mem_append.mpr hu))
            obtain ⟨pre, d, mid, h1, h2, h3⟩ := h.waits u hu'
            exact ⟨pre, d, mid ++ [.took s.m.ton s.m.toff], by rw [g2, hql, h1]; simp, quiet_snoc h2 (fun hh => nomatch hh) (fun _ _ hh => nomatch hh), fun _ => ⟨_, _, List.mem_append_right _ (List.mem_singleton.mpr rfl)⟩⟩
          · intro pre u post hl
            rw [g2, hql] at hl
            rcases split_snoc hl with ⟨p, _, hl⟩ | ⟨_, hx, _⟩
            · exact h.told _ _ _ hl
            · exact (nomatch hx)
          · rw [g1, hqm, k2, k3, k4, k5]
            rcases k6 with k6 | k6 <;> rw [k6] <;> omega
        | false =>
          rw [if_neg (by simp)]
          obtain ⟨k1, k2, k3, k4, k5, k6⟩ := c3 hc hset
          refine ⟨fun hh => by have hh : (Modulator.callback s.m).set = true := hh; rw [k1] at hh; exact (nomatch hh), fun _ => by show ((Modulator.callback s.m).on, (Modulator.callback s.m).off) = _; rw [k2, k3]; exact h.effect hset, h.took, ?_, h.told, h.nodup, ?_⟩
          · intro u hu
            obtain ⟨pre, d, mid, h1, h2, h3⟩ := h.waits u hu
            exact ⟨pre, d, mid, h1, h2, fun _ => h3 hset⟩
          · show (Modulator.callback s.m).cycle ≤ 255 ∧ (Modulator.callback s.m).on ≤ 255 ∧ (Modulator.callback s.m).off ≤ 255 ∧ (Modulator.callback s.m).ton ≤ 255 ∧ (Modulator.callback s.m).toff ≤ 255
            rw [k2, k3, k4, k5]
            rcases k6 with k6 | k6 <;> rw [k6] <;> omega
      · rw [if_neg (fun hh => hc hh.1), c1 (by omega)]
        exact ⟨h.pending, h.effect, h.took, h.waits, h.told, h.nodup, ⟨by show s.m.cycle - 1 ≤ 255; omega, h.small.2⟩⟩
    · exact (nomatch hs)

/-- All executions, from any state in which all is well. -/
theorem run_good (first : Nat) (es : List Event) : ∀ {s s' : State}, Good first s → (∀ t d, .set t d ∈ es → d ≤ 255) → run s es = some s' → Good first s' := by
  induction es with
  | nil => intro s s' h _ hr; cases hr; exact h
  | cons e es ih =>
    intro s s' h he hr
    unfold run at hr
    cases hs : step s e with
    | none => rw [hs] at hr; exact (nomatch hr)
    | some q =>
      rw [hs] at hr
      exact ih (step_good first h (fun t d hh => he t d (hh ▸ List.mem_cons_self ..)) hs) (fun t d hh => he t d (List.mem_cons_of_mem _ hh)) hr

/-- Firings of a timer that is armed. -/
theorem fires (ws : List Nat) : ∀ s : State, s.armed = true → ∃ s', run s (ws.map .fire) = some s' ∧ s'.armed = true ∧
    (s.m.set = true → s.m.cycle < ws.length → s'.m.set = false ∧ ∀ t, s.blocked = [t] → s.woken = [] → s'.woken = [t] ∧ s'.blocked = []) ∧
    (s.m.set = false → s'.m.set = false ∧ s'.blocked = s.blocked ∧ s'.woken = s.woken ∧ s'.log = s.log) := by
  induction ws with
  | nil => intro s h; exact ⟨s, rfl, h, fun _ hh => absurd hh (Nat.not_lt_zero _), fun hh => ⟨hh, rfl, rfl, rfl⟩⟩
  | cons w ws ih =>
    intro s h
    obtain ⟨c1, c2, c3⟩ := callback_fields s.m
    have hstep : step s (.fire w) = some (if s.m.cycle = 0 ∧ s.m.set = true then signal w { s with m := Modulator.callback s.m, log := s.log ++ [Deed.took s.m.ton s.m.toff] } else { s with m := Modulator.callback s.m }) := by
      unfold step
      simp only []
      rw [if_pos h]
    show ∃ s', (step s (.fire w)).bind (fun s => run s (ws.map .fire)) = some s' ∧ _
    rw [hstep, Option.bind_some]
    by_cases hc : s.m.cycle = 0
    · cases hset : s.m.set with
      | true =>
        rw [if_pos ⟨hc, rfl⟩]
        generalize hq : ({ s with m := Modulator.callback s.m, log := s.log ++ [Deed.took s.m.ton s.m.toff] } : State) = q
        obtain ⟨g1, g2, g3⟩ := signal_m w q
        obtain ⟨s', r1, r2, _, r4⟩ := ih (signal w q) (by rw [g3, ← hq]; exact h)
        have hf : (signal w q).m.set = false := by rw [g1, ← hq]; exact (c2 hc hset).1
        obtain ⟨r5, r6, r7, _⟩ := r4 hf
        refine ⟨s', r1, r2, fun _ _ => ⟨r5, fun t hb hw => ?_⟩, fun hh => (nomatch hh)⟩
        have hb' : q.blocked = [t] := by rw [← hq]; exact hb
        have hw' : q.woken = [] := by rw [← hq]; exact hw
        have hsig : (signal w q).blocked = [] ∧ (signal w q).woken = [t] := by
          unfold signal
          rw [hb', List.length_singleton, Nat.mod_one]
          simp [hw']
        exact ⟨by rw [r7]; exact hsig.2, by rw [r6]; exact hsig.1⟩
      | false =>
        rw [if_neg (by simp)]
        obtain ⟨s', r1, r2, _, r4⟩ := ih { s with m := Modulator.callback s.m } h
        refine ⟨s', r1, r2, fun hh => (nomatch hh), fun _ => ?_⟩
        exact r4 (c3 hc hset).1
    · rw [if_neg (fun hh => hc hh.1), c1 (by omega)]
      obtain ⟨s', r1, r2, r3, r4⟩ := ih { s with m := { s.m with cycle := s.m.cycle - 1 } } h
      refine ⟨s', r1, r2, fun hh hl => ?_, fun hh => r4 hh⟩
      exact r3 hh (by show s.m.cycle - 1 < ws.length; rw [List.length_cons] at hl; omega)

end Diminuto.Modset
