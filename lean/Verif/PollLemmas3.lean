import Verif.PollLemmas2

/-!
# Lemmas: the poller, histories
-/

namespace Diminuto.Poll

open Diminuto.Mux (Mux Kind FdSet Fds Regs Valid Bounds SetInv bounds_pos Clean)

/-- What holds of a poller, given the registrations and whether a registered descriptor has just been closed. -/
structure Inv (p : Poll) (g : Regs) (s : Bool) : Prop where
  mux : Mux.Inv p.mux g
  made : p.refresh = false → s = false → Made p g

theorem Inv.sets {p : Poll} {g : Regs} {s : Bool} (h : Inv p g s) : MInv p.mux g := ⟨h.mux.sets, fun k => funext (h.mux.active k)⟩

theorem inv_init : Inv init (fun _ _ => false) false := ⟨Mux.inv_init, fun _ _ => .inl fun _ => rfl⟩

/-- After a wait. -/
theorem wait_mux {m m' : Mux} {g : Regs} (hi : Mux.Inv m g) (c : Nat → Cond)
    (h : ∀ k, m'.set k = if dues g c > 0 then Mux.reset { m.set k with ready := bitsOf g c k (m.set k) } else m.set k) : Mux.Inv m' g := by
  refine ⟨fun k => ?_, fun k i => ?_, fun i hr => ?_⟩
  · rw [h k]
    split
    · exact Mux.reset_inv (Mux.ready_inv (hi.sets k) _)
    · exact hi.sets k
  · rw [h k]
    split
    · rw [(Mux.reset_fields _).1]
      exact hi.active k i
    · exact hi.active k i
  · rw [h .write] at hr ⊢
    split at hr
    · rename_i hd
      rw [if_pos hd, (Mux.reset_fields _).1]
      rw [(Mux.reset_fields _).2.1] at hr
      simp only [bitsOf] at hr
      split at hr
      · split at hr
        · simp only [asked, Bool.and_eq_true] at hr
          show (m.set .write).active i = true
          rw [hi.active]
          exact hr.1
        · exact hi.write i hr
      · exact hi.write i hr
    · rename_i hd
      rw [if_neg hd]
      exact hi.write i hr

theorem close_unregistered {m : Mux} {g : Regs} (hi : Mux.Inv m g) (fd : Int) (ok : Bool) (h : ¬ (Valid fd ∧ any g fd.toNat = true)) :
    ∃ r, Mux.close m fd ok = some (m, r) := by
  have hn : ∀ k, Mux.unregister m k fd = some (m, -1) := fun k =>
    Mux.unregister_no m k fd fun hk => h ⟨hk.1, any_of (k := k) (by rw [← hi.active]; exact hk.2)⟩
  unfold Mux.close
  rw [hn, Option.bind_some]
  simp only [hn, Option.bind_some]
  exact ⟨_, rfl⟩

theorem regs_unregistered {g : Regs} (fd : Int) (ok : Bool) (h : ¬ (Valid fd ∧ any g fd.toNat = true)) : regsAfter g (.close fd ok) = g := by
  show (if Valid fd then (fun j i => if i = fd.toNat then false else g j i) else g) = g
  split
  · rename_i hv
    funext k i
    split
    · rename_i he
      cases hg : g k i
      · rfl
      · exact absurd ⟨hv, by rw [← he]; exact any_of hg⟩ h
    · rfl
  · rfl

theorem made_congr {p p' : Poll} {g : Regs} (ha : p'.arr = p.arr) (hs : ∀ k, (p'.mux.set k).min = (p.mux.set k).min ∧ (p'.mux.set k).max = (p.mux.set k).max)
    (h : Made p g) : Made p' g := by
  rcases h with h | ⟨lo, h1, h2, h3⟩
  · exact .inl h
  · rw [← allBounds_congr hs] at h1 h2
    exact .inr ⟨lo, h1, by rw [ha]; exact h2, by rw [ha]; exact h3⟩

theorem step_inv {p p' : Poll} {g : Regs} {s : Bool} {r : Int} (hi : Inv p g s) (op : Op) (hok : WaitOk g s op) (h : step p op = some (p', r)) :
    Inv p' (regsAfter g op) (closedAfter g s op) := by
  cases op with
  | register k fd =>
    obtain ⟨m, e1, e2, -⟩ := Mux.register_inv hi.mux k fd
    simp only [step] at h
    rw [e1, Option.bind_some] at h
    simp only [Option.some.injEq, Prod.mk.injEq] at h
    obtain ⟨h, -⟩ := h
    subst h
    refine ⟨e2, ?_⟩
    intro hr hs
    by_cases hv : Valid fd ∧ g k fd.toNat = false
    · simp only [if_pos hv] at hr
      rw [if_pos hv.1.1] at hr
      simp at hr
    · simp only [if_neg hv, closedAfter] at hr hs
      have hmm : m = p.mux := by
        rw [Mux.register_eq, if_neg (by rw [hi.mux.active]; exact hv)] at e1
        simp only [Option.some.injEq, Prod.mk.injEq] at e1
        exact e1.1.symm
      have hg : regsAfter g (.register k fd) = g := by
        show (if Valid fd then (fun j i => if j = k ∧ i = fd.toNat then true else g j i) else g) = g
        split
        · rename_i hv'
          funext j i
          split
          · rename_i he
            rw [he.1, he.2]
            cases hb : g k fd.toNat
            · exact absurd ⟨hv', hb⟩ hv
            · rfl
          · rfl
        · rfl
      rw [hg, hmm]
      exact hi.made (by simpa using hr) hs
  | unregister k fd =>
    obtain ⟨m, e1, e2, -⟩ := Mux.unregister_inv hi.mux k fd
    simp only [step] at h
    rw [e1, Option.bind_some] at h
    simp only [Option.some.injEq, Prod.mk.injEq] at h
    obtain ⟨h, -⟩ := h
    subst h
    refine ⟨e2, ?_⟩
    intro hr hs
    by_cases hv : Valid fd ∧ g k fd.toNat = true
    · simp only [if_pos hv] at hr
      rw [if_pos hv.1.1] at hr
      simp at hr
    · simp only [if_neg hv, closedAfter] at hr hs
      have hmm : m = p.mux := by
        rw [Mux.unregister_no _ _ _ (by rw [hi.mux.active]; exact hv)] at e1
        simp only [Option.some.injEq, Prod.mk.injEq] at e1
        exact e1.1.symm
      have hg : regsAfter g (.unregister k fd) = g := by
        show (if Valid fd then (fun j i => if j = k ∧ i = fd.toNat then false else g j i) else g) = g
        split
        · rename_i hv'
          funext j i
          split
          · rename_i he
            rw [he.1, he.2]
            cases hb : g k fd.toNat
            · rfl
            · exact absurd ⟨hv', hb⟩ hv
          · rfl
        · rfl
      rw [hg, hmm]
      exact hi.made (by simpa using hr) hs
  | close fd ok =>
    obtain ⟨m, e1, e2, -⟩ := Mux.close_inv hi.mux fd ok
    simp only [step] at h
    rw [e1, Option.bind_some] at h
    simp only [Option.some.injEq, Prod.mk.injEq] at h
    obtain ⟨h, -⟩ := h
    subst h
    refine ⟨e2, ?_⟩
    intro hr hs
    by_cases hv : Valid fd ∧ any g fd.toNat = true
    · simp only [closedAfter, if_pos hv] at hs
      simp at hs
    · simp only [closedAfter, if_neg hv] at hs
      obtain ⟨r', e3⟩ := close_unregistered hi.mux fd ok hv
      rw [e3] at e1
      simp only [Option.some.injEq, Prod.mk.injEq] at e1
      rw [regs_unregistered fd ok hv, ← e1.1]
      exact hi.made hr hs
  | wait forever alloc e =>
    simp only [regsAfter, closedAfter]
    have hm : p.refresh = false → Made p g := by
      intro hr
      rcases hok with hok | hok
      · exact hi.made hr hok
      · exact .inl hok
    have hal : wait p forever true e = some (p', r) := by
      simp only [step] at h
      cases alloc with
      | true => exact h
      | false =>
        unfold wait at h ⊢
        simp only [Option.bind_eq_some_iff] at h ⊢
        obtain ⟨q, h1, h2⟩ := h
        refine ⟨q, ?_, h2⟩
        unfold prepare at h1 ⊢
        simp only [] at h1 ⊢
        split at h1
        · simp at h1
        · rename_i hl
          rw [if_neg hl]
          exact h1
    cases e with
    | polled c =>
      obtain ⟨q, a1, a2, a3, a4⟩ := wait_polled hi.sets hm forever c
      rw [a1] at hal
      simp only [Option.some.injEq, Prod.mk.injEq] at hal
      rw [← hal.1]
      exact ⟨wait_mux hi.mux c a4, fun _ _ => a3⟩
    | error =>
      obtain ⟨q, r', a1, a2, a3, a4⟩ := wait_error hi.sets hm forever
      rw [a1] at hal
      simp only [Option.some.injEq, Prod.mk.injEq] at hal
      rw [← hal.1]
      exact ⟨by rw [a4]; exact hi.mux, fun _ _ => a3⟩
  | ready k =>
    simp only [step, Option.bind_eq_some_iff] at h
    obtain ⟨q, h1, h⟩ := h
    simp only [Option.some.injEq, Prod.mk.injEq] at h
    obtain ⟨h, -⟩ := h
    have hm := (Mux.step_inv (m' := Mux.put p.mux k q.1) (r := q.2) hi.mux (.ready k) (by simp only [Mux.step]; rw [h1]; rfl)).1
    subst h
    refine ⟨hm, ?_⟩
    intro hr hs
    refine made_congr (p := p) rfl (fun j => ?_) (hi.made hr hs)
    obtain ⟨-, -, i3, i4, -⟩ := Mux.setReady_inv (hi.mux.sets k) (s' := q.1) (r := q.2) h1
    by_cases hj : j = k
    · subst hj
      rw [Mux.put_same]
      exact ⟨i3, i4⟩
    · rw [Mux.put_ne _ _ hj]
      exact ⟨rfl, rfl⟩

theorem run_inv' : ∀ (ops : List Op) (p p' : Poll) (g : Regs) (s : Bool) (rs : List Int), Inv p g s → Fresh g s ops → run p ops = some (p', rs) →
    Inv p' (regsRun g ops) (closedRun g s ops) := by
  intro ops
  induction ops with
  | nil =>
    intro p p' g s rs hi _ h
    simp only [run, Option.some.injEq, Prod.mk.injEq] at h
    rw [← h.1]
    exact hi
  | cons op ops ih =>
    intro p p' g s rs hi hf h
    simp only [run, Option.bind_eq_some_iff] at h
    obtain ⟨q, h1, q', h2, h3⟩ := h
    simp only [Option.some.injEq, Prod.mk.injEq] at h3
    rw [← h3.1]
    exact ih q.1 q'.1 _ _ q'.2 (step_inv hi op hf.1 h1) hf.2 h2

theorem run_inv {ops : List Op} {p : Poll} {rs : List Int} (hf : Fresh (fun _ _ => false) false ops) (h : run init ops = some (p, rs)) :
    Inv p (regsRun (fun _ _ => false) ops) (closedRun (fun _ _ => false) false ops) := run_inv' ops _ _ _ _ _ inv_init hf h

/-- A set has no bit but those of registered descriptors. -/
def Sub (m : Mux) : Prop := ∀ k i, (m.set k).ready i = true → (m.set k).active i = true

theorem sub_clean {m : Mux} (h : Sub m) (k : Kind) : Clean (m.set k) := fun i hr _ _ => h k i hr

/-- After a wait that reports something, if the sets are separate. -/
theorem wait_sub {m m' : Mux} {g : Regs} (hi : Mux.Inv m g) (hs : Sub m) (hg : Separate g) (c : Nat → Cond)
    (h : ∀ k, m'.set k = if dues g c > 0 then Mux.reset { m.set k with ready := bitsOf g c k (m.set k) } else m.set k) : Sub m' := by
  intro k i hr
  rw [h k] at hr ⊢
  split at hr
  · rename_i hd
    rw [if_pos hd, (Mux.reset_fields _).1]
    rw [(Mux.reset_fields _).2.1] at hr
    show (m.set k).active i = true
    simp only [bitsOf] at hr
    split at hr
    · rename_i hin
      split at hr
      · simp only [Bool.and_eq_true] at hr
        rcases bounds_pos (hi.sets k).bounds (hi.sets k).small with ⟨-, x1, x2⟩ | ⟨x0, x1, x2, x3⟩
        · omega
        · obtain ⟨⟨a, y1, y2⟩, b, z1, z2⟩ := (hi.sets k).bounds.2.1 x0
          rw [hi.active] at y1 z1 ⊢
          have key : ∀ j, Mux.sibling k = some j → g j i = true → g k i = true := fun j hj hji =>
            hg k j hj a b i y1 z1 hji (by omega) (by omega)
          have hask := hr.1
          cases k <;> simp only [asked, Bool.or_eq_true] at hask
          · exact hask.elim id (key .accept rfl)
          · exact hask
          · exact hask.elim (key .read rfl) id
          · exact hask.elim id (key .interrupt rfl)
          · exact hask.elim (key .urgent rfl) id
      · exact hs k i hr
    · exact hs k i hr
  · rename_i hd
    rw [if_neg hd]
    exact hs k i hr

theorem unregister_sub {m m' : Mux} {g : Regs} {r : Int} (hi : Mux.Inv m g) (hs : Sub m) (k : Kind) (fd : Int) (h : Mux.unregister m k fd = some (m', r)) :
    Sub m' ∧ ∃ g', Mux.Inv m' g' := by
  obtain ⟨m'', e1, e2, -⟩ := Mux.unregister_inv hi k fd
  rw [e1] at h
  simp only [Option.some.injEq, Prod.mk.injEq] at h
  refine ⟨?_, _, by rw [← h.1]; exact e2⟩
  by_cases hv : Valid fd ∧ (m.set k).active fd.toNat = true
  · obtain ⟨s, x1, x2, x3, x4⟩ := Mux.unregister_yes m k fd (hi.sets k) hv.1 hv.2
    rw [x1] at e1
    simp only [Option.some.injEq, Prod.mk.injEq] at e1
    rw [← h.1, ← e1.1]
    intro j i hr
    by_cases hj : j = k
    · subst hj
      rw [Mux.put_same] at hr ⊢
      rw [x4] at hr
      rw [x3]
      split at hr
      · simp at hr
      · rename_i hne
        rw [if_neg hne]
        exact hs _ _ hr
    · rw [Mux.put_ne _ _ hj, Mux.unionOf_set] at hr ⊢
      exact hs _ _ hr
  · rw [Mux.unregister_no _ _ _ hv] at e1
    simp only [Option.some.injEq, Prod.mk.injEq] at e1
    rw [← h.1, ← e1.1]
    exact hs

/-- A call, if the sets are separate at a wait. -/
theorem step_sub {p : Poll} {g : Regs} {s : Bool} (hi : Inv p g s) (hs : Sub p.mux) (op : Op) (hok : WaitOk g s op)
    (hsafe : ∀ f a e, op = .wait f a e → a = true ∧ Separate g) : ∃ p' r, step p op = some (p', r) ∧ Sub p'.mux := by
  cases op with
  | register k fd =>
    obtain ⟨m, e1, -, -⟩ := Mux.register_inv hi.mux k fd
    simp only [step]
    rw [e1, Option.bind_some]
    refine ⟨_, _, rfl, ?_⟩
    show Sub m
    rw [Mux.register_eq] at e1
    simp only [Option.some.injEq] at e1
    split at e1
    · simp only [Prod.mk.injEq] at e1
      rw [← e1.1]
      intro j i hr
      by_cases hj : j = k
      · subst hj
        rw [Mux.put_same] at hr ⊢
        simp only [] at hr ⊢
        split at hr
        · simp at hr
        · rename_i hne
          rw [if_neg hne]
          exact hs _ _ hr
      · rw [Mux.put_ne _ _ hj, Mux.unionOf_set] at hr ⊢
        exact hs _ _ hr
    · simp only [Prod.mk.injEq] at e1
      rw [← e1.1]
      exact hs
  | unregister k fd =>
    obtain ⟨m, e1, e2, -⟩ := Mux.unregister_inv hi.mux k fd
    simp only [step]
    rw [e1, Option.bind_some]
    exact ⟨_, _, rfl, (unregister_sub hi.mux hs k fd e1).1⟩
  | close fd ok =>
    obtain ⟨m, e1, -, -⟩ := Mux.close_inv hi.mux fd ok
    simp only [step]
    rw [e1, Option.bind_some]
    refine ⟨_, _, rfl, ?_⟩
    show Sub m
    unfold Mux.close at e1
    simp only [Option.bind_eq_some_iff] at e1
    obtain ⟨q1, h1, q2, h2, q3, h3, q4, h4, q5, h5, h6⟩ := e1
    simp only [Option.some.injEq, Prod.mk.injEq] at h6
    obtain ⟨s1, g1, i1⟩ := unregister_sub hi.mux hs .accept fd h1
    obtain ⟨s2, g2, i2⟩ := unregister_sub i1 s1 .read fd h2
    obtain ⟨s3, g3, i3⟩ := unregister_sub i2 s2 .write fd h3
    obtain ⟨s4, g4, i4⟩ := unregister_sub i3 s3 .urgent fd h4
    obtain ⟨s5, g5, i5⟩ := unregister_sub i4 s4 .interrupt fd h5
    rw [← h6.1]
    exact s5
  | wait forever alloc e =>
    obtain ⟨ha, hg⟩ := hsafe _ _ _ rfl
    subst ha
    have hm : p.refresh = false → Made p g := by
      intro hr
      rcases hok with hok | hok
      · exact hi.made hr hok
      · exact .inl hok
    cases e with
    | polled c =>
      obtain ⟨q, a1, a2, a3, a4⟩ := wait_polled hi.sets hm forever c
      exact ⟨q, _, a1, wait_sub hi.mux hs hg c a4⟩
    | error =>
      obtain ⟨q, r', a1, a2, a3, a4⟩ := wait_error hi.sets hm forever
      exact ⟨q, _, a1, by rw [a4]; exact hs⟩
  | ready k =>
    obtain ⟨s', r, e1, e2, e3, e4, -, -, e5⟩ := Mux.setReady_eq (hi.mux.sets k) (sub_clean hs k)
    obtain ⟨-, -, -, -, i5, -⟩ := Mux.setReady_inv (hi.mux.sets k) e1
    simp only [step]
    rw [e1, Option.bind_some]
    refine ⟨_, _, rfl, ?_⟩
    intro j i hr
    by_cases hj : j = k
    · subst hj
      simp only [Mux.put_same] at hr ⊢
      rw [e4]
      exact hs _ _ (i5 i hr)
    · simp only [Mux.put_ne _ _ hj] at hr ⊢
      exact hs _ _ hr

theorem run_sub : ∀ (ops : List Op) (p : Poll) (g : Regs) (s : Bool), Inv p g s → Sub p.mux → Fresh g s ops → Safe g ops →
    ∃ p' rs, run p ops = some (p', rs) ∧ Sub p'.mux := by
  intro ops
  induction ops with
  | nil => intro p g s _ hs _ _; exact ⟨p, [], rfl, hs⟩
  | cons op ops ih =>
    intro p g s hi hs hf hsafe
    obtain ⟨p1, r, e1, e2⟩ := step_sub hi hs op hf.1 hsafe.1
    obtain ⟨p2, rs, e3, e4⟩ := ih p1 _ _ (step_inv hi op hf.1 e1) e2 hf.2 hsafe.2
    refine ⟨p2, r :: rs, ?_, e4⟩
    simp only [run]
    rw [e1, Option.bind_some, e3, Option.bind_some]

theorem drain_after {m m' : Mux} {g : Regs} (hi : Mux.Inv m g) (c : Nat → Cond) (hd : dues g c > 0)
    (h : ∀ k, m'.set k = Mux.reset { m.set k with ready := bitsOf g c k (m.set k) }) (k : Kind) (hc : Clean (m'.set k)) :
    ∃ l : List Nat, l.Nodup ∧ (∀ i, i ∈ l ↔ g k i = true ∧ holds k (c i) = true) ∧
      ∀ n, Mux.drain (m'.set k) n = some ((l.map (fun i : Nat => (i : Int)) ++ List.replicate n (-1)).take n) := by
  have hi' : Mux.Inv m' g := wait_mux hi c fun k => by rw [if_pos hd]; exact h k
  refine ⟨Mux.order (m'.set k), ?_, ?_, fun n => Mux.drain_eq n _ (hi'.sets k) hc⟩
  · unfold Mux.order
    split
    · exact List.nodup_nil
    · exact (Mux.around_nodup _ _ _).filter _
  · intro i
    have hs := hi'.sets k
    have hact := hi'.active k
    have hrd : ∀ i, g k i = true → (m'.set k).ready i = holds k (c i) := by
      intro i hgi
      rw [h k, (Mux.reset_fields _).2.1]
      show bitsOf g c k (m.set k) i = _
      unfold bitsOf
      have := (hi.sets k).bounds.1 i (by rw [hi.active]; exact hgi)
      rw [if_pos this, if_pos (any_of hgi)]
      have : asked g k i = true := by cases k <;> simp [asked, hgi]
      rw [this, Bool.true_and]
    rcases bounds_pos hs.bounds hs.small with ⟨he, -, -⟩ | ⟨he, b1, b2, b3⟩
    · have : g k i = false := by rw [← hact]; exact he i
      rw [this]
      simp only [Bool.false_eq_true, false_and, iff_false]
      unfold Mux.order
      split
      · simp
      · simp [he]
    · have hn : 0 ≤ (m'.set k).next ∧ (m'.set k).min ≤ (m'.set k).next ∧ (m'.set k).next ≤ (m'.set k).max := by
        rcases hs.next with hn | hn
        · exfalso
          rw [h k] at hn b1 b2
          rw [(Mux.reset_fields _).2.2.1] at b1 b2
          rw [(Mux.reset_fields _).2.2.2] at b2
          simp only [] at b1 b2
          unfold Mux.reset at hn
          split at hn
          · omega
          · split at hn
            · rename_i hx; simp only [] at hx; omega
            · simp only [] at hn; omega
        · omega
      rw [Mux.order_eq hn.1, List.mem_filter, Mux.mem_around _ _ _ _ (by omega) (by omega), hact]
      constructor
      · rintro ⟨-, h2⟩
        simp only [Bool.and_eq_true] at h2
        exact ⟨h2.2, by rw [← hrd i h2.2]; exact h2.1⟩
      · rintro ⟨h1, h2⟩
        have := hs.bounds.1 i (by rw [hact]; exact h1)
        refine ⟨by omega, ?_⟩
        rw [hrd i h1, h1, h2]
        rfl

end Diminuto.Poll
