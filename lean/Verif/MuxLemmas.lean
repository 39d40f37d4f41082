import Verif.MuxSpec

/-!
# Lemmas: the multiplexer
-/

namespace Diminuto.Mux

structure SetInv (s : FdSet) : Prop where
  bounds : Bounds s.active s.min s.max
  small : ∀ i, s.active i = true → i < 1024
  next : s.next = -1 ∨ (s.min ≤ s.next ∧ s.next ≤ s.max ∧ 0 ≤ s.min)

structure Inv (m : Mux) (g : Regs) : Prop where
  sets : ∀ k, SetInv (m.set k)
  active : ∀ k i, (m.set k).active i = g k i
  write : ∀ i, (m.set .write).ready i = true → (m.set .write).active i = true

structure Unions (m : Mux) (g : Regs) : Prop where
  roa : ∀ i, m.readOrAccept i = (g .read i || g .accept i)
  uoi : ∀ i, m.urgentOrInterrupt i = (g .urgent i || g .interrupt i)

theorem isset_valid {fd : Int} (h : Valid fd) (f : Fds) : isset fd f = some (f fd.toNat) := if_pos h

theorem assign_valid {fd : Int} (h : Valid fd) (f : Fds) (b : Bool) : assign fd f b = some (fun i => if i = fd.toNat then b else f i) := if_pos h

/-- The union that a set belongs to, after an assignment. -/
def unionOf (m : Mux) (k : Kind) (fd : Int) (b : Bool) : Mux :=
  match k with
  | .read | .accept => { m with readOrAccept := fun i => if i = fd.toNat then b else m.readOrAccept i }
  | .urgent | .interrupt => { m with urgentOrInterrupt := fun i => if i = fd.toNat then b else m.urgentOrInterrupt i }
  | .write => m

theorem union_valid {fd : Int} (h : Valid fd) (m : Mux) (k : Kind) (b : Bool) : union m k fd b = some (unionOf m k fd b) := by
  cases k <;> simp [union, unionOf, assign_valid h]

theorem unionOf_set (m : Mux) (k : Kind) (fd : Int) (b : Bool) : (unionOf m k fd b).set = m.set := by
  cases k <;> rfl

theorem bounds_empty : Bounds (fun _ => false) MOSTPOSITIVE MOSTNEGATIVE :=
  ⟨by simp, by simp, fun _ => ⟨rfl, rfl⟩⟩

theorem inv_init : Inv init (fun _ _ => false) :=
  ⟨fun _ => ⟨bounds_empty, by simp [init, setInit], .inl rfl⟩, fun _ _ => rfl, by simp [init, setInit]⟩

theorem unions_init : Unions init (fun _ _ => false) := ⟨fun _ => rfl, fun _ => rfl⟩

/-- The least and the greatest element are not negative. -/
theorem bounds_pos {f : Nat → Bool} {min max : Int} (h : Bounds f min max) (hs : ∀ i, f i = true → i < 1024) :
    ((∀ i, f i = false) ∧ min = 2147483647 ∧ max = -2147483648) ∨ ((∃ i, f i = true) ∧ 0 ≤ min ∧ min ≤ max ∧ max < 1024) := by
  by_cases he : ∃ i, f i = true
  · obtain ⟨⟨i, h1, h2⟩, j, h3, h4⟩ := h.2.1 he
    have := h.1 j h3
    have := hs j h3
    exact .inr ⟨he, by omega, by omega, by omega⟩
  · have : ∀ i, f i = false := fun i => by
      cases hf : f i
      · rfl
      · exact absurd ⟨i, hf⟩ he
    exact .inl ⟨this, h.2.2 this⟩

theorem register_eq (m : Mux) (k : Kind) (fd : Int) :
    register m k fd = some (if Valid fd ∧ (m.set k).active fd.toNat = false then
      (put (unionOf m k fd true) k { (m.set k) with
        active := fun i => if i = fd.toNat then true else (m.set k).active i
        ready := fun i => if i = fd.toNat then false else (m.set k).ready i
        min := if fd < (m.set k).min then fd else (m.set k).min
        max := if fd > (m.set k).max then fd else (m.set k).max }, fd) else (m, -1)) := by
  unfold register
  simp only []
  by_cases hv : Valid fd
  · have hv' : 0 ≤ fd ∧ fd < (FD_SETSIZE : Int) := hv
    rw [if_neg (not_not_intro hv'), isset_valid hv, Option.bind_some]
    cases ha : (m.set k).active fd.toNat
    · rw [if_neg (by decide), assign_valid hv, Option.bind_some, assign_valid hv, Option.bind_some, union_valid hv, Option.bind_some]
      simp [hv]
    · rw [if_pos rfl, if_neg (by simp)]
  · have hv' : ¬ (0 ≤ fd ∧ fd < (FD_SETSIZE : Int)) := hv
    rw [if_pos hv', if_neg (fun h => hv h.1)]

theorem setInv_register {s : FdSet} (hi : SetInv s) {fd : Int} (hv : Valid fd) :
    SetInv { s with
        active := fun i => if i = fd.toNat then true else s.active i
        ready := fun i => if i = fd.toNat then false else s.ready i
        min := if fd < s.min then fd else s.min
        max := if fd > s.max then fd else s.max } := by
  obtain ⟨v1, v2⟩ := hv
  have ef : ((fd.toNat : Nat) : Int) = fd := Int.toNat_of_nonneg v1
  have hb := bounds_pos hi.bounds hi.small
  refine ⟨⟨?_, ?_, ?_⟩, ?_, ?_⟩
  · intro i h
    simp only [] at h ⊢
    by_cases hif : i = fd.toNat
    · subst hif
      split <;> split <;> omega
    · rw [if_neg hif] at h
      have := hi.bounds.1 i h
      split <;> split <;> omega
  · intro _
    simp only []
    rcases hb with ⟨-, h1, h2⟩ | ⟨he, -, -, -⟩
    · have e1 : fd < s.min := by omega
      have e2 : fd > s.max := by omega
      rw [if_pos e1, if_pos e2]
      exact ⟨⟨fd.toNat, by simp, ef.symm⟩, fd.toNat, by simp, ef.symm⟩
    · obtain ⟨⟨i, h1, h2⟩, j, h3, h4⟩ := hi.bounds.2.1 he
      refine ⟨?_, ?_⟩
      · split
        · exact ⟨fd.toNat, by simp, ef.symm⟩
        · exact ⟨i, by simp [h1], h2⟩
      · split
        · exact ⟨fd.toNat, by simp, ef.symm⟩
        · exact ⟨j, by simp [h3], h4⟩
  · intro h
    have := h fd.toNat
    simp at this
  · intro i h
    simp only [] at h
    split at h
    · omega
    · exact hi.small i h
  · simp only []
    rcases hi.next with h | ⟨h1, h2, h3⟩
    · exact .inl h
    · right
      split <;> split <;> omega

theorem boundLoop_eq (s : FdSet) : ∀ (n : Nat) (fd mn mx : Int), 0 ≤ fd → fd + n ≤ 1024 →
    ∃ mn' mx', boundLoop s n fd mn mx = some (mn', mx') ∧ mn' ≤ mn ∧ mx ≤ mx' ∧
      (∀ i : Nat, fd ≤ i → (i : Int) < fd + n → s.active i = true → mn' ≤ i ∧ (i : Int) ≤ mx') ∧
      (mn' = mn ∨ ∃ i : Nat, s.active i = true ∧ mn' = i) ∧
      (mx' = mx ∨ ∃ i : Nat, s.active i = true ∧ mx' = i) := by
  intro n
  induction n with
  | zero =>
    intro fd mn mx h0 h1
    exact ⟨mn, mx, rfl, Int.le_refl _, Int.le_refl _, fun i h2 h3 => by omega, .inl rfl, .inl rfl⟩
  | succ n ih =>
    intro fd mn mx h0 h1
    have ef : ((fd.toNat : Nat) : Int) = fd := Int.toNat_of_nonneg h0
    unfold boundLoop
    rw [isset_valid ⟨h0, by omega⟩, Option.bind_some]
    cases ha : s.active fd.toNat
    · simp only [Bool.false_eq_true, if_false]
      obtain ⟨mn', mx', h2, h3, h4, h5, h6, h7⟩ := ih (fd + 1) mn mx (by omega) (by omega)
      refine ⟨mn', mx', h2, h3, h4, ?_, h6, h7⟩
      intro i hi1 hi2 hi3
      by_cases he : (i : Int) = fd
      · have : i = fd.toNat := by omega
        rw [this, ha] at hi3
        simp at hi3
      · exact h5 i (by omega) (by omega) hi3
    · simp only [if_true]
      obtain ⟨mn', mx', h2, h3, h4, h5, h6, h7⟩ := ih (fd + 1) (if fd < mn then fd else mn) (if fd > mx then fd else mx) (by omega) (by omega)
      refine ⟨mn', mx', h2, ?_, ?_, ?_, ?_, ?_⟩
      · split at h3 <;> omega
      · split at h4 <;> omega
      · intro i hi1 hi2 hi3
        by_cases he : (i : Int) = fd
        · refine ⟨?_, ?_⟩
          · split at h3 <;> omega
          · split at h4 <;> omega
        · exact h5 i (by omega) (by omega) hi3
      · rcases h6 with h6 | h6
        · split at h6
          · exact .inr ⟨fd.toNat, ha, by omega⟩
          · exact .inl h6
        · exact .inr h6
      · rcases h7 with h7 | h7
        · split at h7
          · exact .inr ⟨fd.toNat, ha, by omega⟩
          · exact .inl h7
        · exact .inr h7

/-- After a descriptor has been removed, the bounds are computed again. -/
theorem bound_eq {s : FdSet} (hr : ∀ i, s.active i = true → s.min ≤ i ∧ (i : Int) ≤ s.max) (h0 : 0 ≤ s.min) (h1 : s.min ≤ s.max) (h2 : s.max < 1024) :
    ∃ mn mx, bound s = some { s with min := mn, max := mx } ∧ Bounds s.active mn mx := by
  obtain ⟨mn, mx, e1, e2, e3, e4, e5, e6⟩ := boundLoop_eq s (s.max + 1 - s.min).toNat s.min MOSTPOSITIVE MOSTNEGATIVE h0 (by omega)
  refine ⟨mn, mx, ?_, ?_, ?_, ?_⟩
  · unfold bound
    rw [e1]
    rfl
  · intro i hi
    have := hr i hi
    exact e4 i this.1 (by omega) hi
  · rintro ⟨i, hi⟩
    have h3 := hr i hi
    have h4 := e4 i h3.1 (by omega) hi
    refine ⟨?_, ?_⟩
    · rcases e5 with h | h
      · rw [h, MOSTPOSITIVE] at h4; omega
      · exact h
    · rcases e6 with h | h
      · rw [h, MOSTNEGATIVE] at h4; omega
      · exact h
  · intro h
    refine ⟨?_, ?_⟩
    · rcases e5 with h | ⟨i, hi, -⟩
      · rw [h]; rfl
      · rw [h i] at hi; simp at hi
    · rcases e6 with h | ⟨i, hi, -⟩
      · rw [h]; rfl
      · rw [h i] at hi; simp at hi

theorem normalize_fields (s : FdSet) : (normalize s).active = s.active ∧ (normalize s).ready = s.ready ∧
    (normalize s).min = s.min ∧ (normalize s).max = s.max := by
  unfold normalize
  split
  · exact ⟨rfl, rfl, rfl, rfl⟩
  · split
    · exact ⟨rfl, rfl, rfl, rfl⟩
    · split
      · exact ⟨rfl, rfl, rfl, rfl⟩
      · split <;> exact ⟨rfl, rfl, rfl, rfl⟩

theorem normalize_inv {s : FdSet} (hb : Bounds s.active s.min s.max) (hs : ∀ i, s.active i = true → i < 1024)
    (hn : s.next = -1 ∨ 0 ≤ s.next) : SetInv (normalize s) := by
  obtain ⟨f1, f2, f3, f4⟩ := normalize_fields s
  refine ⟨by rw [f1, f3, f4]; exact hb, by rw [f1]; exact hs, ?_⟩
  have hp := bounds_pos hb hs
  rw [f3, f4]
  unfold normalize
  split
  · exact .inl (by omega)
  · split
    · exact .inl rfl
    · split
      · exact .inr (by simp only []; omega)
      · split
        · exact .inr (by simp only []; omega)
        · exact .inr (by omega)

theorem unregister_no (m : Mux) (k : Kind) (fd : Int) (h : ¬ (Valid fd ∧ (m.set k).active fd.toNat = true)) :
    unregister m k fd = some (m, -1) := by
  unfold unregister
  simp only []
  by_cases hv : Valid fd
  · have hv' : 0 ≤ fd ∧ fd < (FD_SETSIZE : Int) := hv
    rw [if_neg (not_not_intro hv'), isset_valid hv, Option.bind_some, if_neg (fun ha => h ⟨hv, ha⟩)]
  · have hv' : ¬ (0 ≤ fd ∧ fd < (FD_SETSIZE : Int)) := hv
    rw [if_pos hv']

/-- What remains of a set after a descriptor has been removed. -/
theorem unregister_yes (m : Mux) (k : Kind) (fd : Int) (hi : SetInv (m.set k)) (v : Valid fd) (ha : (m.set k).active fd.toNat = true) :
    ∃ s, unregister m k fd = some (put (unionOf m k fd false) k s, fd) ∧
      SetInv s ∧ (∀ i, s.active i = if i = fd.toNat then false else (m.set k).active i) ∧
      (∀ i, s.ready i = if i = fd.toNat then false else (m.set k).ready i) := by
  have hb := bounds_pos hi.bounds hi.small
  rcases hb with ⟨h, -, -⟩ | ⟨he, b1, b2, b3⟩
  · rw [h] at ha; simp at ha
  obtain ⟨mn, mx, e1, e2⟩ := bound_eq (s := { (m.set k) with
      active := fun i => if i = fd.toNat then false else (m.set k).active i
      ready := fun i => if i = fd.toNat then false else (m.set k).ready i }) (by
        intro i h
        simp only [] at h ⊢
        split at h
        · simp at h
        · exact hi.bounds.1 i h) b1 b2 b3
  have hv' : 0 ≤ fd ∧ fd < (FD_SETSIZE : Int) := v
  refine ⟨normalize { (m.set k) with
      active := fun i => if i = fd.toNat then false else (m.set k).active i
      ready := fun i => if i = fd.toNat then false else (m.set k).ready i
      min := mn, max := mx }, ?_, ?_, ?_, ?_⟩
  · unfold unregister
    simp only []
    rw [if_neg (not_not_intro hv'), isset_valid v, Option.bind_some, ha, if_pos rfl, assign_valid v, Option.bind_some, assign_valid v,
      Option.bind_some, union_valid v, Option.bind_some, e1, Option.bind_some]
  · apply normalize_inv
    · exact e2
    · intro i h
      simp only [] at h
      split at h
      · simp at h
      · exact hi.small i h
    · rcases hi.next with h | h
      · exact .inl h
      · exact .inr (by simp only []; omega)
  · intro i; rw [(normalize_fields _).1]
  · intro i; rw [(normalize_fields _).2.1]

/-- Registrations without one descriptor in one set. -/
def without (g : Regs) (k : Kind) (fd : Int) : Regs :=
  if Valid fd then (fun j i => if j = k ∧ i = fd.toNat then false else g j i) else g

theorem put_same (m : Mux) (k : Kind) (s : FdSet) : (put m k s).set k = s := by simp [put]

theorem put_ne (m : Mux) {j k : Kind} (s : FdSet) (h : j ≠ k) : (put m k s).set j = m.set j := by simp [put, h]

theorem unregister_inv {m : Mux} {g : Regs} (hi : Inv m g) (k : Kind) (fd : Int) :
    ∃ m', unregister m k fd = some (m', if Valid fd ∧ g k fd.toNat = true then fd else -1) ∧ Inv m' (without g k fd) ∧
      (Disjoint g → Unions m g → Unions m' (without g k fd)) := by
  by_cases h : Valid fd ∧ (m.set k).active fd.toNat = true
  · obtain ⟨s, e1, e2, e3, e4⟩ := unregister_yes m k fd (hi.sets k) h.1 h.2
    have hg : g k fd.toNat = true := by rw [← hi.active]; exact h.2
    refine ⟨_, by rw [e1, if_pos ⟨h.1, hg⟩], ?_, ?_⟩
    · refine ⟨?_, ?_, ?_⟩
      · intro j
        by_cases hj : j = k
        · subst hj; rw [put_same]; exact e2
        · rw [put_ne _ _ hj, unionOf_set]; exact hi.sets j
      · intro j i
        unfold without
        rw [if_pos h.1]
        by_cases hj : j = k
        · subst hj; rw [put_same, e3, hi.active]; simp
        · rw [put_ne _ _ hj, unionOf_set, hi.active]; simp [hj]
      · intro i hr
        by_cases hj : Kind.write = k
        · subst hj
          rw [put_same] at hr ⊢
          rw [e4] at hr
          rw [e3]
          split at hr
          · simp at hr
          · rename_i hne
            rw [if_neg hne]
            exact hi.write i hr
        · rw [put_ne _ _ hj, unionOf_set] at hr ⊢
          exact hi.write i hr
    · intro hd hu
      have hdi := hd fd.toNat
      unfold without
      rw [if_pos h.1]
      refine ⟨?_, ?_⟩
      · intro i
        have := hu.roa i
        by_cases hif : i = fd.toNat
        · subst hif
          cases k <;> simp_all [put, unionOf]
        · cases k <;> simp_all [put, unionOf]
      · intro i
        have := hu.uoi i
        by_cases hif : i = fd.toNat
        · subst hif
          cases k <;> simp_all [put, unionOf]
        · cases k <;> simp_all [put, unionOf]
  · have hg : ¬ (Valid fd ∧ g k fd.toNat = true) := by rw [← hi.active]; exact h
    have e : without g k fd = g := by
      unfold without
      split
      · rename_i hv
        funext j i
        split
        · rename_i hj
          obtain ⟨rfl, rfl⟩ := hj
          cases hgk : g j fd.toNat
          · rfl
          · exact absurd ⟨hv, hgk⟩ hg
        · rfl
      · rfl
    refine ⟨m, by rw [unregister_no m k fd h, if_neg hg], by rw [e]; exact hi, by rw [e]; exact fun _ h => h⟩

theorem disjoint_without {g : Regs} (h : Disjoint g) (k : Kind) (fd : Int) : Disjoint (without g k fd) := by
  intro i
  have hle : ∀ j, without g k fd j i = true → g j i = true := by
    intro j hj
    unfold without at hj
    split at hj
    · simp only [] at hj
      split at hj
      · simp at hj
      · exact hj
    · exact hj
  exact ⟨fun h1 => (h i).1 ⟨hle _ h1.1, hle _ h1.2⟩, fun h1 => (h i).2 ⟨hle _ h1.1, hle _ h1.2⟩⟩

theorem close_inv {m : Mux} {g : Regs} (hi : Inv m g) (fd : Int) (ok : Bool) :
    ∃ m', close m fd ok = some (m', if ok = false then -1 else if Valid fd ∧ (g .read fd.toNat || g .write fd.toNat || g .accept fd.toNat || g .urgent fd.toNat || g .interrupt fd.toNat) = true then 0 else -2) ∧
      Inv m' (regsAfter g (.close fd ok)) ∧ (Disjoint g → Unions m g → Unions m' (regsAfter g (.close fd ok))) := by
  obtain ⟨m1, a1, a2, a3⟩ := unregister_inv hi .accept fd
  obtain ⟨m2, b1, b2, b3⟩ := unregister_inv a2 .read fd
  obtain ⟨m3, c1, c2, c3⟩ := unregister_inv b2 .write fd
  obtain ⟨m4, d1, d2, d3⟩ := unregister_inv c2 .urgent fd
  obtain ⟨m5, e1, e2, e3⟩ := unregister_inv d2 .interrupt fd
  have eg : without (without (without (without (without g .accept fd) .read fd) .write fd) .urgent fd) .interrupt fd =
      regsAfter g (.close fd ok) := by
    simp only [without, regsAfter]
    split
    · funext j i
      by_cases hif : i = fd.toNat
      · cases j <;> simp [hif]
      · simp [hif]
    · rfl
  rw [eg] at e2 e3
  refine ⟨m5, ?_, e2, ?_⟩
  · unfold close
    rw [a1, Option.bind_some, b1, Option.bind_some, c1, Option.bind_some, d1, Option.bind_some, e1, Option.bind_some]
    simp only []
    congr 2
    have w : ∀ (g' : Regs) (k j : Kind), j ≠ k → without g' k fd j fd.toNat = g' j fd.toNat := by
      intro g' k j hj
      unfold without
      split
      · simp [hj]
      · rfl
    simp only [w, ne_eq, reduceCtorEq, not_false_eq_true]
    cases ok
    · simp
    · simp only [if_true, Bool.true_eq_false, if_false]
      by_cases hv : Valid fd
      · have h0 : ¬ fd < 0 := by have := hv.1; omega
        have hs : ∀ k, ((if Valid fd ∧ g k fd.toNat = true then fd else -1) < 0) ↔ g k fd.toNat = false := by
          intro k
          cases hk : g k fd.toNat
          · simp
          · simp [hv, h0]
        simp only [hs]
        by_cases hall : g .accept fd.toNat = false ∧ g .read fd.toNat = false ∧ g .write fd.toNat = false ∧ g .urgent fd.toNat = false ∧
            g .interrupt fd.toNat = false
        · rw [if_pos hall, if_neg]
          simp [hall]
        · rw [if_neg hall, if_pos]
          refine ⟨hv, Classical.byContradiction fun hn => hall ?_⟩
          simp only [Bool.or_eq_true, not_or, Bool.not_eq_true] at hn
          exact ⟨hn.1.1.2, hn.1.1.1.1, hn.1.1.1.2, hn.1.2, hn.2⟩
      · simp [hv]
  · intro hd hu
    have h1 := disjoint_without hd .accept fd
    have h2 := disjoint_without h1 .read fd
    have h3 := disjoint_without h2 .write fd
    have h4 := disjoint_without h3 .urgent fd
    exact e3 h4 (d3 h3 (c3 h2 (b3 h1 (a3 hd hu))))

theorem register_inv {m : Mux} {g : Regs} (hi : Inv m g) (k : Kind) (fd : Int) :
    ∃ m', register m k fd = some (m', if Valid fd ∧ g k fd.toNat = false then fd else -1) ∧ Inv m' (regsAfter g (.register k fd)) ∧
      (Unions m g → Unions m' (regsAfter g (.register k fd))) := by
  rw [register_eq]
  by_cases h : Valid fd ∧ (m.set k).active fd.toNat = false
  · rw [if_pos h]
    rw [hi.active] at h
    rw [if_pos h]
    refine ⟨_, rfl, ?_, ?_⟩
    · refine ⟨?_, ?_, ?_⟩
      · intro j
        by_cases hj : j = k
        · subst hj; rw [put_same]; exact setInv_register (hi.sets j) h.1
        · rw [put_ne _ _ hj, unionOf_set]; exact hi.sets j
      · intro j i
        simp only [regsAfter]
        rw [if_pos h.1]
        by_cases hj : j = k
        · subst hj; rw [put_same]; simp [hi.active]
        · rw [put_ne _ _ hj, unionOf_set, hi.active]; simp [hj]
      · intro i hr
        by_cases hj : Kind.write = k
        · subst hj
          rw [put_same] at hr ⊢
          simp only [] at hr ⊢
          split at hr
          · simp at hr
          · rename_i hne
            rw [if_neg hne]
            exact hi.write i hr
        · rw [put_ne _ _ hj, unionOf_set] at hr ⊢
          exact hi.write i hr
    · intro hu
      simp only [regsAfter]
      rw [if_pos h.1]
      refine ⟨?_, ?_⟩
      · intro i
        have := hu.roa i
        by_cases hif : i = fd.toNat
        · subst hif
          cases k <;> simp_all [put, unionOf]
        · cases k <;> simp_all [put, unionOf]
      · intro i
        have := hu.uoi i
        by_cases hif : i = fd.toNat
        · subst hif
          cases k <;> simp_all [put, unionOf]
        · cases k <;> simp_all [put, unionOf]
  · rw [if_neg h]
    rw [hi.active] at h
    rw [if_neg h]
    have e : regsAfter g (.register k fd) = g := by
      simp only [regsAfter]
      split
      · rename_i hv
        funext j i
        split
        · rename_i hj
          obtain ⟨rfl, rfl⟩ := hj
          cases hgk : g j fd.toNat
          · exact absurd ⟨hv, hgk⟩ h
          · rfl
        · rfl
      · rfl
    exact ⟨m, rfl, by rw [e]; exact hi, by rw [e]; exact fun h => h⟩

theorem reset_fields (s : FdSet) : (reset s).active = s.active ∧ (reset s).ready = s.ready ∧ (reset s).min = s.min ∧ (reset s).max = s.max := by
  unfold reset
  split
  · exact ⟨rfl, rfl, rfl, rfl⟩
  · split <;> exact ⟨rfl, rfl, rfl, rfl⟩

theorem reset_inv {s : FdSet} (hi : SetInv s) : SetInv (reset s) := by
  obtain ⟨f1, f2, f3, f4⟩ := reset_fields s
  refine ⟨by rw [f1, f3, f4]; exact hi.bounds, by rw [f1]; exact hi.small, ?_⟩
  have hp := bounds_pos hi.bounds hi.small
  rw [f3, f4]
  unfold reset
  split
  · exact hi.next
  · split
    · exact hi.next
    · exact .inr (by simp only []; omega)

theorem ready_inv {s : FdSet} (hi : SetInv s) (f : Fds) : SetInv { s with ready := f } := ⟨hi.bounds, hi.small, hi.next⟩

theorem wait_inv {m : Mux} {g : Regs} (hi : Inv m g) (poll : Bool) (e : Select) :
    Inv (wait m poll e).1 g ∧ (Unions m g → Unions (wait m poll e).1 g) := by
  unfold wait
  split
  · cases e with
    | ready r w x =>
      simp only []
      refine ⟨⟨?_, ?_, ?_⟩, fun hu => ⟨hu.roa, hu.uoi⟩⟩
      · intro k
        cases k <;> exact reset_inv (ready_inv (hi.sets _) _)
      · intro k i
        cases k <;> simp only [(reset_fields _).1] <;> exact hi.active _ i
      · intro i h
        simp only [(reset_fields _).1, (reset_fields _).2.1, Bool.and_eq_true] at h ⊢
        exact h.1.1
    | timeout =>
      simp only []
      refine ⟨⟨?_, ?_, ?_⟩, fun hu => ⟨hu.roa, hu.uoi⟩⟩
      · intro k
        by_cases hk : k = .write
        · subst hk; rw [put_same]; exact ready_inv (hi.sets _) _
        · rw [put_ne _ _ hk]; exact hi.sets k
      · intro k i
        by_cases hk : k = .write
        · subst hk; rw [put_same]; exact hi.active _ i
        · rw [put_ne _ _ hk]; exact hi.active k i
      · intro i h
        rw [put_same] at h
        simp at h
    | error =>
      simp only []
      refine ⟨⟨?_, ?_, ?_⟩, fun hu => ⟨hu.roa, hu.uoi⟩⟩
      · intro k
        by_cases hk : k = .write
        · subst hk; rw [put_same]; exact ready_inv (hi.sets _) _
        · rw [put_ne _ _ hk]; exact hi.sets k
      · intro k i
        by_cases hk : k = .write
        · subst hk; rw [put_same]; exact hi.active _ i
        · rw [put_ne _ _ hk]; exact hi.active k i
      · intro i h
        rw [put_same] at h ⊢
        exact h
  · exact ⟨hi, fun h => h⟩

/-- The descriptor after another. -/
def suc (a b n : Nat) : Nat := if n < b then n + 1 else a

/-- So many descriptors, beginning with one. -/
def circ (a b : Nat) : Nat → Nat → List Nat
  | _, 0 => []
  | n, j + 1 => n :: circ a b (suc a b n) j

/-- The descriptor so many after another. -/
def iter (a b : Nat) : Nat → Nat → Nat
  | n, 0 => n
  | n, j + 1 => iter a b (suc a b n) j

theorem circ_add (a b : Nat) : ∀ (i n j : Nat), circ a b n (i + j) = circ a b n i ++ circ a b (iter a b n i) j := by
  intro i
  induction i with
  | zero => intro n j; simp [circ, iter]
  | succ i ih =>
    intro n j
    rw [Nat.add_right_comm]
    simp only [circ, iter, ih, List.cons_append]

theorem circ_length (a b : Nat) : ∀ (j n : Nat), (circ a b n j).length = j := by
  intro j
  induction j with
  | zero => intro n; rfl
  | succ j ih => intro n; simp [circ, ih]

theorem circ_range (a b : Nat) : ∀ (j n : Nat), n + j ≤ b + 1 → circ a b n j = List.range' n j := by
  intro j
  induction j with
  | zero => intro n _; rfl
  | succ j ih =>
    intro n h
    rw [List.range'_succ]
    simp only [circ]
    rcases Nat.eq_zero_or_pos j with hj | hj
    · subst hj; rfl
    · rw [show suc a b n = n + 1 from if_pos (by omega), ih (n + 1) (by omega)]

theorem iter_below (a b : Nat) : ∀ (j n : Nat), n + j ≤ b → iter a b n j = n + j := by
  intro j
  induction j with
  | zero => intro n _; rfl
  | succ j ih =>
    intro n h
    simp only [iter]
    rw [show suc a b n = n + 1 from if_pos (by omega), ih (n + 1) (by omega)]
    omega

theorem iter_add (a b : Nat) : ∀ (i n j : Nat), iter a b n (i + j) = iter a b (iter a b n i) j := by
  intro i
  induction i with
  | zero => intro n j; simp [iter]
  | succ i ih =>
    intro n j
    rw [Nat.add_right_comm]
    simp only [iter, ih]

theorem iter_last (a b n : Nat) (h : n ≤ b) : iter a b n (b + 1 - n) = a := by
  rw [show b + 1 - n = (b - n) + 1 by omega, iter_add, iter_below a b (b - n) n (by omega), show n + (b - n) = b by omega]
  simp [iter, suc]

theorem circ_around (a b n : Nat) (h1 : a ≤ n) (h2 : n ≤ b) : circ a b n (b + 1 - a) = around a b n := by
  rw [show b + 1 - a = (b + 1 - n) + (n - a) by omega, circ_add, iter_last a b n h2, circ_range a b _ n (by omega), circ_range a b _ a (by omega)]
  rfl

theorem iter_around (a b n : Nat) (h1 : a ≤ n) (h2 : n ≤ b) : iter a b n (b + 1 - a) = n := by
  rw [show b + 1 - a = (b + 1 - n) + (n - a) by omega, iter_add, iter_last a b n h2, iter_below a b _ a (by omega)]
  omega

theorem around_nodup (a b n : Nat) : (around a b n).Nodup := by
  unfold around
  rw [List.nodup_append]
  refine ⟨List.nodup_range', List.nodup_range', ?_⟩
  intro x hx y hy
  have := List.mem_range'_1.1 hx
  have := List.mem_range'_1.1 hy
  omega

theorem mem_around (a b n i : Nat) (h1 : a ≤ n) (h2 : n ≤ b) : i ∈ around a b n ↔ a ≤ i ∧ i ≤ b := by
  unfold around
  rw [List.mem_append, List.mem_range'_1, List.mem_range'_1]
  omega

/-- Beginning after an element of the circle, the circle is rotated. -/
theorem around_rotate (a b n : Nat) (h1 : a ≤ n) (h2 : n ≤ b) (l1 l2 : List Nat) (x : Nat) (h : around a b n = l1 ++ x :: l2) :
    around a b (suc a b x) = l2 ++ (l1 ++ [x]) := by
  rw [← circ_around a b n h1 h2] at h
  have hlen : l1.length + l2.length + 1 = b + 1 - a := by
    have := congrArg List.length h
    rw [circ_length] at this
    simp only [List.length_append, List.length_cons] at this
    omega
  have hx : x ∈ around a b n := by rw [← circ_around a b n h1 h2, h]; simp
  rw [mem_around a b n x h1 h2] at hx
  have hs : a ≤ suc a b x ∧ suc a b x ≤ b := by unfold suc; split <;> omega
  rw [show b + 1 - a = (l1.length + 1) + l2.length by omega, circ_add] at h
  have e1 : circ a b n (l1.length + 1) = l1 ++ [x] ∧ circ a b (iter a b n (l1.length + 1)) l2.length = l2 := by
    rw [show l1 ++ x :: l2 = (l1 ++ [x]) ++ l2 by simp] at h
    exact List.append_inj h (by rw [circ_length]; simp)
  have e2 : iter a b n (l1.length + 1) = suc a b x := by
    have h3 := e1.1
    rw [circ_add] at h3
    have h4 := List.append_inj h3 (by rw [circ_length])
    simp only [circ, List.cons.injEq, and_true] at h4
    rw [iter_add, h4.2]
    rfl
  rw [e2] at e1
  rw [← circ_around a b _ hs.1 hs.2, show b + 1 - a = l2.length + (l1.length + 1) by omega, circ_add, e1.2]
  congr 1
  have : iter a b (suc a b x) l2.length = n := by
    rw [← e2, ← iter_add, show l1.length + 1 + l2.length = b + 1 - a by omega, iter_around a b n h1 h2]
  rw [this]
  exact e1.1

/-- The set after a descriptor has been returned. -/
def taken (s : FdSet) (x : Nat) : FdSet :=
  { s with ready := fun i => if i = x then false else s.ready i, next := suc s.min.toNat s.max.toNat x }

theorem scan_eq (w : Nat) (s0 : FdSet) (h0 : 0 ≤ s0.min) (hle : s0.min ≤ s0.max) (hc : Clean s0) (hm : s0.max < 1024)
    (hw1 : s0.min.toNat ≤ w) (hw2 : w ≤ s0.max.toNat) :
    ∀ (d fuel n : Nat), s0.min.toNat ≤ n → n ≤ s0.max.toNat → d ≤ fuel →
      (d = if n < w then w - n else (s0.max.toNat - n) + 1 + (w - s0.min.toNat)) →
      scan w fuel { s0 with next := n } = some
        (match (circ s0.min.toNat s0.max.toNat n d).find? (fun i => s0.ready i && s0.active i) with
          | some x => (taken s0 x, (x : Int))
          | none => ({ s0 with next := w }, -1)) := by
  intro d
  induction d with
  | zero =>
    intro fuel n hn1 hn2 hf hd
    split at hd <;> omega
  | succ d ih =>
    intro fuel n hn1 hn2 hf hd
    obtain ⟨fuel, rfl⟩ : ∃ m, fuel = m + 1 := ⟨fuel - 1, by omega⟩
    have hv : Valid (n : Int) := ⟨by omega, by omega⟩
    have hnext : (if (n : Int) < s0.max then (n : Int) + 1 else s0.min) = ((suc s0.min.toNat s0.max.toNat n : Nat) : Int) := by
      unfold suc
      split <;> split <;> omega
    unfold scan
    simp only [isset_valid hv, Int.toNat_natCast, Option.bind_some]
    simp only [circ, List.find?_cons]
    cases hr : s0.ready n
    · simp only [Bool.false_eq_true, if_false, Option.bind_some, Bool.false_and]
      rw [hnext]
      by_cases hend : suc s0.min.toNat s0.max.toNat n = w
      · rw [hend, if_neg (by simp)]
        have : d = 0 := by
          unfold suc at hend
          split at hd <;> split at hend <;> omega
        subst this
        simp [circ]
      · rw [if_pos ⟨by decide, by omega⟩]
        have hsuc : s0.min.toNat ≤ suc s0.min.toNat s0.max.toNat n ∧ suc s0.min.toNat s0.max.toNat n ≤ s0.max.toNat := by
          unfold suc; split <;> omega
        have hcase : (n < s0.max.toNat ∧ suc s0.min.toNat s0.max.toNat n = n + 1) ∨
            (n = s0.max.toNat ∧ suc s0.min.toNat s0.max.toNat n = s0.min.toNat) := by
          unfold suc; split <;> omega
        exact ih fuel _ hsuc.1 hsuc.2 (by omega) (by
          generalize suc s0.min.toNat s0.max.toNat n = q at *
          by_cases c1 : n < w
          · rw [if_pos c1] at hd
            by_cases c2 : q < w
            · rw [if_pos c2]; omega
            · rw [if_neg c2]; omega
          · rw [if_neg c1] at hd
            by_cases c2 : q < w
            · rw [if_pos c2]; omega
            · rw [if_neg c2]; omega)
    · have ha : s0.active n = true := hc n hr (by omega) (by omega)
      simp only [if_true, ha, Bool.and_true]
      rw [assign_valid hv]
      simp only [Option.bind_some]
      rw [if_neg (by omega)]
      rw [hnext]
      simp only [taken, Int.toNat_natCast]

theorem order_of_next {s : FdSet} (h : s.next < 0) : order s = [] := if_pos h

theorem order_eq {s : FdSet} (h : 0 ≤ s.next) :
    order s = (around s.min.toNat s.max.toNat s.next.toNat).filter fun i => s.ready i && s.active i := if_neg (by omega)

theorem clean_taken {s : FdSet} (hc : Clean s) (x : Nat) : Clean (taken s x) := by
  intro i h1 h2 h3
  simp only [taken] at h1 h2 h3 ⊢
  split at h1
  · simp at h1
  · exact hc i h1 h2 h3

/-- C38, one call: the first descriptor in the order is returned, and removed from what is ready. -/
theorem setReady_eq {s : FdSet} (hi : SetInv s) (hc : Clean s) :
    ∃ s' r, setReady s = some (s', r) ∧ SetInv s' ∧ Clean s' ∧ s'.active = s.active ∧ s'.min = s.min ∧ s'.max = s.max ∧
      (match order s with
        | [] => r = -1 ∧ s'.next = -1 ∧ s'.ready = s.ready
        | x :: l => r = (x : Int) ∧ order s' = l ∧ ∀ i, s'.ready i = if i = x then false else s.ready i) := by
  rcases hi.next with hn | ⟨h1, h2, h3⟩
  · refine ⟨s, -1, ?_, hi, hc, rfl, rfl, rfl, ?_⟩
    · unfold setReady
      rw [if_neg (by omega)]
    · rw [order_of_next (by omega)]
      exact ⟨rfl, hn, rfl⟩
  · have hp := bounds_pos hi.bounds hi.small
    have hm : s.max < 1024 := by omega
    have hsc := scan_eq s.next.toNat s h3 (by omega) hc hm (by omega) (by omega) (s.max.toNat + 1 - s.min.toNat) (FD_SETSIZE + 1) s.next.toNat (by omega) (by omega)
      (by simp only [FD_SETSIZE]; omega) (by rw [if_neg (by omega)]; omega)
    have en : ((s.next.toNat : Nat) : Int) = s.next := by omega
    have es : { s with next := ((s.next.toNat : Nat) : Int) } = s := by rw [en]
    rw [es, en, circ_around _ _ _ (by omega) (by omega)] at hsc
    rw [order_eq (by omega)]
    cases hf : (around s.min.toNat s.max.toNat s.next.toNat).find? (fun i => s.ready i && s.active i) with
    | none =>
      rw [hf] at hsc
      simp only [] at hsc
      have : (around s.min.toNat s.max.toNat s.next.toNat).filter (fun i => s.ready i && s.active i) = [] := by
        rw [List.filter_eq_nil_iff]
        exact fun i hi => by simpa using List.find?_eq_none.1 hf i hi
      rw [this]
      refine ⟨{ s with next := -1 }, -1, ?_, ⟨hi.bounds, hi.small, .inl rfl⟩, hc, rfl, rfl, rfl, rfl, rfl, rfl⟩
      unfold setReady
      rw [if_pos (by omega), hsc, Option.bind_some, if_pos (show (-1 : Int) < 0 by decide)]
    | some x =>
      rw [hf] at hsc
      simp only [] at hsc
      obtain ⟨hx, l1, l2, h4, h5⟩ := List.find?_eq_some_iff_append.1 hf
      have hxm : x ∈ around s.min.toNat s.max.toNat s.next.toNat := by rw [h4]; simp
      rw [mem_around _ _ _ _ (by omega) (by omega)] at hxm
      have hs : s.min.toNat ≤ suc s.min.toNat s.max.toNat x ∧ suc s.min.toNat s.max.toNat x ≤ s.max.toNat := by unfold suc; split <;> omega
      have hl1 : l1.filter (fun i => s.ready i && s.active i) = [] := by
        rw [List.filter_eq_nil_iff]
        intro i hi
        have := h5 i hi
        simp only [Bool.not_eq_true'] at this
        rw [this]
        simp
      have hfil : (around s.min.toNat s.max.toNat s.next.toNat).filter (fun i => s.ready i && s.active i) =
          x :: l2.filter (fun i => s.ready i && s.active i) := by
        rw [h4, List.filter_append, hl1, List.filter_cons, if_pos hx, List.nil_append]
      rw [hfil]
      refine ⟨taken s x, x, ?_, ⟨hi.bounds, hi.small, .inr ?_⟩, clean_taken hc x, rfl, rfl, rfl, rfl, ?_, fun i => rfl⟩
      · unfold setReady
        rw [if_pos (by omega), hsc, Option.bind_some, if_neg (by simp only []; omega)]
      · simp only [taken]
        omega
      · rw [order_eq (by simp only [taken]; omega)]
        simp only [taken, Int.toNat_natCast]
        have hnd := around_nodup s.min.toNat s.max.toNat s.next.toNat
        rw [around_rotate _ _ _ (by omega) (by omega) l1 l2 x h4, List.filter_append, List.filter_append]
        rw [h4, List.nodup_append] at hnd
        have hx2 : x ∉ l2 := (List.nodup_cons.1 hnd.2.1).1
        have f1 : l2.filter (fun i => (if i = x then false else s.ready i) && s.active i) = l2.filter (fun i => s.ready i && s.active i) := by
          apply List.filter_congr
          intro i hi
          rw [if_neg (by rintro rfl; exact hx2 hi)]
        have f2 : l1.filter (fun i => (if i = x then false else s.ready i) && s.active i) = [] := by
          rw [List.filter_eq_nil_iff] at hl1 ⊢
          intro i hi
          have := hl1 i hi
          split
          · simp
          · exact this
        rw [f1, f2]
        simp

theorem assign_sub {fd : Int} {f f' : Fds} (h : assign fd f false = some f') (i : Nat) (hi : f' i = true) : f i = true := by
  unfold assign at h
  split at h
  · simp only [Option.some.injEq] at h
    rw [← h] at hi
    dsimp only at hi
    split at hi
    · simp at hi
    · exact hi
  · simp at h

theorem scan_inv (w : Int) : ∀ (fuel : Nat) (s s' : FdSet) (r : Int), 0 ≤ s.min → s.min ≤ s.next → s.next ≤ s.max →
    scan w fuel s = some (s', r) →
      s'.active = s.active ∧ s'.min = s.min ∧ s'.max = s.max ∧ s.min ≤ s'.next ∧ s'.next ≤ s.max ∧
      (∀ i, s'.ready i = true → s.ready i = true) ∧
      (r = -1 ∨ (s.min ≤ r ∧ r ≤ s.max ∧ s'.next = if r < s.max then r + 1 else s.min)) := by
  intro fuel
  induction fuel with
  | zero => intro s s' r _ _ _ h; simp [scan] at h
  | succ fuel ih =>
    intro s s' r h0 h1 h2 h
    unfold scan at h
    simp only [Option.bind_eq_some_iff] at h
    obtain ⟨b, -, q, hq, h⟩ := h
    have hq' : q.1.active = s.active ∧ q.1.min = s.min ∧ q.1.max = s.max ∧ q.1.next = s.next ∧ (∀ i, q.1.ready i = true → s.ready i = true) ∧
        (q.2 = -1 ∨ q.2 = s.next) := by
      split at hq
      · simp only [Option.bind_eq_some_iff] at hq
        obtain ⟨a, -, f, hf, hq⟩ := hq
        simp only [Option.some.injEq] at hq
        subst hq
        refine ⟨rfl, rfl, rfl, rfl, ?_, ?_⟩
        · exact assign_sub hf
        · cases a
          · exact .inl rfl
          · exact .inr rfl
      · simp only [Option.some.injEq] at hq
        subst hq
        exact ⟨rfl, rfl, rfl, rfl, fun _ h => h, .inl rfl⟩
    obtain ⟨q1, q2, q3, q4, q5, q6⟩ := hq'
    have hn : s.min ≤ (if s.next < s.max then s.next + 1 else s.min) ∧ (if s.next < s.max then s.next + 1 else s.min) ≤ s.max := by
      split <;> omega
    simp only [q2, q3, q4] at h
    have hN : ∀ r, r = s.next → (if s.next < s.max then s.next + 1 else s.min) = if r < s.max then r + 1 else s.min := by
      rintro r rfl; rfl
    generalize (if s.next < s.max then s.next + 1 else s.min) = N at h hn hN
    split at h
    · rename_i hc
      obtain ⟨i1, i2, i3, i4, i5, i6, i7⟩ := ih { q.1 with next := N, min := s.min, max := s.max } s' r h0
        (by exact hn.1) (by exact hn.2) h
      refine ⟨by rw [i1, q1], i2, i3, i4, i5, fun i hi => q5 i (i6 i hi), i7⟩
    · simp only [Option.some.injEq, Prod.mk.injEq] at h
      obtain ⟨h, rfl⟩ := h
      subst h
      refine ⟨q1, rfl, rfl, hn.1, hn.2, q5, ?_⟩
      rcases q6 with h | h
      · exact .inl h
      · exact .inr ⟨by omega, by omega, hN _ h⟩

theorem setReady_inv {s s' : FdSet} {r : Int} (hi : SetInv s) (h : setReady s = some (s', r)) :
    SetInv s' ∧ s'.active = s.active ∧ s'.min = s.min ∧ s'.max = s.max ∧ (∀ i, s'.ready i = true → s.ready i = true) ∧
      (r = -1 ∨ (s.min ≤ r ∧ r ≤ s.max ∧ 0 ≤ r ∧ s'.next = if r < s.max then r + 1 else s.min)) := by
  unfold setReady at h
  split at h
  · rename_i hn
    rcases hi.next with hn' | ⟨h1, h2, h3⟩
    · omega
    rw [Option.bind_eq_some_iff] at h
    obtain ⟨q, hq, h⟩ := h
    obtain ⟨i1, i2, i3, i4, i5, i6, i7⟩ := scan_inv s.next _ s q.1 q.2 h3 h1 h2 hq
    split at h
    · rename_i hneg
      simp only [Option.some.injEq, Prod.mk.injEq] at h
      obtain ⟨rfl, rfl⟩ := h
      refine ⟨⟨by simp only [i1, i2, i3]; exact hi.bounds, by simp only [i1]; exact hi.small, .inl rfl⟩, i1, i2, i3, i6, .inl ?_⟩
      rcases i7 with h | h
      · exact h
      · omega
    · rename_i hneg
      simp only [Option.some.injEq] at h
      subst h
      dsimp only at i1 i2 i3 i4 i5 i6 i7 hneg
      refine ⟨⟨by rw [i1, i2, i3]; exact hi.bounds, by rw [i1]; exact hi.small, .inr (by omega)⟩, i1, i2, i3, i6, ?_⟩
      rcases i7 with h | h
      · omega
      · exact .inr ⟨h.1, h.2.1, by omega, h.2.2⟩
  · simp only [Option.some.injEq, Prod.mk.injEq] at h
    obtain ⟨rfl, rfl⟩ := h
    exact ⟨hi, rfl, rfl, rfl, fun _ h => h, .inl rfl⟩

theorem step_inv {m m' : Mux} {g : Regs} {r : Int} (hi : Inv m g) (op : Op) (h : step m op = some (m', r)) :
    Inv m' (regsAfter g op) ∧ (Disjoint g → Unions m g → Unions m' (regsAfter g op)) := by
  cases op with
  | register k fd =>
    obtain ⟨m1, e1, e2, e3⟩ := register_inv hi k fd
    simp only [step] at h
    rw [e1] at h
    simp only [Option.some.injEq, Prod.mk.injEq] at h
    rw [← h.1]
    exact ⟨e2, fun _ hu => e3 hu⟩
  | unregister k fd =>
    obtain ⟨m1, e1, e2, e3⟩ := unregister_inv hi k fd
    simp only [step] at h
    rw [e1] at h
    simp only [Option.some.injEq, Prod.mk.injEq] at h
    rw [← h.1]
    exact ⟨e2, e3⟩
  | close fd ok =>
    obtain ⟨m1, e1, e2, e3⟩ := close_inv hi fd ok
    simp only [step] at h
    rw [e1] at h
    simp only [Option.some.injEq, Prod.mk.injEq] at h
    rw [← h.1]
    exact ⟨e2, e3⟩
  | wait poll e =>
    simp only [step, Option.some.injEq] at h
    have := wait_inv hi poll e
    rw [h] at this
    exact ⟨this.1, fun _ => this.2⟩
  | ready k =>
    simp only [step, Option.bind_eq_some_iff] at h
    obtain ⟨q, hq, h⟩ := h
    simp only [Option.some.injEq, Prod.mk.injEq] at h
    obtain ⟨i1, i2, i3, i4, i5, -⟩ := setReady_inv (hi.sets k) (s' := q.1) (r := q.2) hq
    rw [← h.1]
    refine ⟨⟨?_, ?_, ?_⟩, fun _ hu => ⟨hu.roa, hu.uoi⟩⟩
    · intro j
      by_cases hj : j = k
      · subst hj; rw [put_same]; exact i1
      · rw [put_ne _ _ hj]; exact hi.sets j
    · intro j i
      by_cases hj : j = k
      · subst hj; rw [put_same, i2]; exact hi.active j i
      · rw [put_ne _ _ hj]; exact hi.active j i
    · intro i hr
      by_cases hj : Kind.write = k
      · subst hj; rw [put_same] at hr ⊢; rw [i2]; exact hi.write i (i5 i hr)
      · rw [put_ne _ _ hj] at hr ⊢; exact hi.write i hr

theorem run_inv' : ∀ (ops : List Op) (m m' : Mux) (g : Regs) (rs : List Int), Inv m g → run m ops = some (m', rs) →
    Inv m' (regsRun g ops) ∧ (Disjoint g → Unions m g → Apart g ops → Disjoint (regsRun g ops) ∧ Unions m' (regsRun g ops)) := by
  intro ops
  induction ops with
  | nil =>
    intro m m' g rs hi h
    simp only [run, Option.some.injEq, Prod.mk.injEq] at h
    rw [← h.1]
    exact ⟨hi, fun hd hu _ => ⟨hd, hu⟩⟩
  | cons op ops ih =>
    intro m m' g rs hi h
    simp only [run, Option.bind_eq_some_iff] at h
    obtain ⟨r, h1, q, h2, h3⟩ := h
    simp only [Option.some.injEq, Prod.mk.injEq] at h3
    obtain ⟨i1, i2⟩ := step_inv hi op (m' := r.1) (r := r.2) h1
    obtain ⟨j1, j2⟩ := ih r.1 m' (regsAfter g op) q.2 i1 (by rw [h2, ← h3.1])
    exact ⟨j1, fun hd hu ha => j2 ha.1 (i2 hd hu) ha.2⟩

theorem run_inv {ops : List Op} {m : Mux} {rs : List Int} (h : run init ops = some (m, rs)) :
    Inv m (regsRun (fun _ _ => false) ops) := (run_inv' ops init m _ rs inv_init h).1

theorem run_unions {ops : List Op} {m : Mux} {rs : List Int} (h : run init ops = some (m, rs)) (ha : Apart (fun _ _ => false) ops) :
    Unions m (regsRun (fun _ _ => false) ops) := ((run_inv' ops init m _ rs inv_init h).2 (fun i => by simp) unions_init ha).2

theorem census_le (s : FdSet) (n : Int) : n ≤ census s n ∧ s.max < census s n := by
  unfold census
  split <;> omega

theorem nfds_above (m : Mux) (k : Kind) : (m.set k).max < nfds m := by
  unfold nfds
  have h1 := census_le (m.set .read) 0
  have h2 := census_le (m.set .write) (census (m.set .read) 0)
  have h3 := census_le (m.set .accept) (census (m.set .write) (census (m.set .read) 0))
  have h4 := census_le (m.set .urgent) (census (m.set .accept) (census (m.set .write) (census (m.set .read) 0)))
  have h5 := census_le (m.set .interrupt) (census (m.set .urgent) (census (m.set .accept) (census (m.set .write) (census (m.set .read) 0))))
  cases k <;> omega

theorem drain_eq : ∀ (n : Nat) (s : FdSet), SetInv s → Clean s →
    drain s n = some (((order s).map (fun i : Nat => (i : Int)) ++ List.replicate n (-1)).take n) := by
  intro n
  induction n with
  | zero => intro s _ _; simp [drain]
  | succ n ih =>
    intro s hi hc
    obtain ⟨s', r, h1, h2, h3, h4, h5, h6, h7⟩ := setReady_eq hi hc
    unfold drain
    rw [h1, Option.bind_some]
    simp only []
    rw [ih s' h2 h3, Option.bind_some]
    congr 1
    cases ho : order s with
    | nil =>
      rw [ho] at h7
      rw [order_of_next (by rw [h7.2.1]; decide), h7.1]
      simp [List.replicate_succ]
    | cons x l =>
      rw [ho] at h7
      rw [h7.1, h7.2.1]
      simp only [List.map_cons, List.cons_append, List.take_succ_cons]
      congr 1
      rw [List.take_append, List.take_append]
      congr 1
      simp only [List.take_replicate, List.length_map]
      congr 1
      omega

end Diminuto.Mux
