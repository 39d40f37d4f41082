import Verif.MuxLemmas

/-!
# Properties C38 and C39: the multiplexer
-/

namespace Diminuto.Mux

/-! ## Scanning -/

/-- C39: after any history the sets have what is registered, and their bounds are exact. -/
theorem mux_bounds_exact (ops : List Op) (m : Mux) (rs : List Int) (h : run init ops = some (m, rs)) (k : Kind) :
    (∀ i, (m.set k).active i = regsRun (fun _ _ => false) ops k i) ∧
    Bounds (regsRun (fun _ _ => false) ops k) (m.set k).min (m.set k).max := by
  have hi := run_inv h
  refine ⟨hi.active k, ?_⟩
  have : (m.set k).active = regsRun (fun _ _ => false) ops k := funext (hi.active k)
  rw [← this]
  exact (hi.sets k).bounds

/-- C39: the wait examines every registered descriptor, and no other; if no descriptor is ever registered for both reading and accepting, or
for both urgent data and interrupts. -/
theorem mux_wait_examines_partial (ops : List Op) (m : Mux) (rs : List Int) (h : run init ops = some (m, rs))
    (ha : Apart (fun _ _ => false) ops) (i : Nat) :
    m.readOrAccept i = (regsRun (fun _ _ => false) ops .read i || regsRun (fun _ _ => false) ops .accept i) ∧
    (m.set .write).active i = regsRun (fun _ _ => false) ops .write i ∧
    m.urgentOrInterrupt i = (regsRun (fun _ _ => false) ops .urgent i || regsRun (fun _ _ => false) ops .interrupt i) ∧
    ∀ k, regsRun (fun _ _ => false) ops k i = true → (i : Int) < nfds m := by
  have hi := run_inv h
  have hu := run_unions h ha
  refine ⟨hu.roa i, hi.active _ i, hu.uoi i, ?_⟩
  intro k hk
  have := ((hi.sets k).bounds.1 i (by rw [hi.active]; exact hk)).2
  have := nfds_above m k
  omega

/-- C39: what register, unregister and close return. -/
theorem mux_returns (ops : List Op) (m : Mux) (rs : List Int) (h : run init ops = some (m, rs)) (fd : Int) (k : Kind) (ok : Bool) :
    (∃ m', step m (.register k fd) = some (m', if Valid fd ∧ regsRun (fun _ _ => false) ops k fd.toNat = false then fd else -1)) ∧
    (∃ m', step m (.unregister k fd) = some (m', if Valid fd ∧ regsRun (fun _ _ => false) ops k fd.toNat = true then fd else -1)) ∧
    (∃ m' r, step m (.close fd ok) = some (m', r) ∧
      (r = 0 ↔ ok = true ∧ Valid fd ∧ ∃ j, regsRun (fun _ _ => false) ops j fd.toNat = true)) := by
  have hi := run_inv h
  obtain ⟨m1, a, -⟩ := register_inv hi k fd
  obtain ⟨m2, b, -⟩ := unregister_inv hi k fd
  obtain ⟨m3, c, -⟩ := close_inv hi fd ok
  refine ⟨⟨m1, a⟩, ⟨m2, b⟩, m3, _, c, ?_⟩
  cases ok
  · simp
  · simp only [Bool.true_eq_false, if_false, true_and]
    have e : (regsRun (fun _ _ => false) ops .read fd.toNat || regsRun (fun _ _ => false) ops .write fd.toNat ||
        regsRun (fun _ _ => false) ops .accept fd.toNat || regsRun (fun _ _ => false) ops .urgent fd.toNat ||
        regsRun (fun _ _ => false) ops .interrupt fd.toNat) = true ↔ ∃ j, regsRun (fun _ _ => false) ops j fd.toNat = true := by
      simp only [Bool.or_eq_true]
      constructor
      · rintro ((((h | h) | h) | h) | h) <;> exact ⟨_, h⟩
      · rintro ⟨j, hj⟩
        cases j <;> simp [hj]
    rw [← e]
    split
    · rename_i h; exact ⟨fun _ => h, fun _ => rfl⟩
    · rename_i h; exact ⟨fun h => absurd h (by decide), fun h' => absurd h' h⟩

/-- C38: after a wait that reports descriptors, any number of calls of a ready function return those that are registered and have been reported,
each once, and then -1.  Assumes that no other descriptor that is ready is between those of the set, and that no
descriptor is ever registered for both reading and accepting, or for both urgent data and interrupts. -/
theorem mux_ready_once_partial (ops : List Op) (m : Mux) (rs : List Int) (h : run init ops = some (m, rs))
    (ha : Apart (fun _ _ => false) ops) (poll : Bool) (r w x : Fds) (hw : (wait m poll (.ready r w x)).2 = 1) (k : Kind)
    (hc : Clean ((wait m poll (.ready r w x)).1.set k)) :
    ∃ l : List Nat, l.Nodup ∧ (∀ i, i ∈ l ↔ regsRun (fun _ _ => false) ops k i = true ∧ chosen k r w x i = true) ∧
      ∀ n, drain ((wait m poll (.ready r w x)).1.set k) n = some ((l.map (fun i : Nat => (i : Int)) ++ List.replicate n (-1)).take n) := by
  have hi := run_inv h
  have hi' := (wait_inv hi poll (.ready r w x)).1
  refine ⟨order ((wait m poll (.ready r w x)).1.set k), ?_, ?_, fun n => drain_eq n _ (hi'.sets k) hc⟩
  · unfold order
    split
    · exact List.nodup_nil
    · exact (around_nodup _ _ _).filter _
  · intro i
    have hcond : nfds m > 0 ∨ poll = false := Classical.byContradiction fun hn => by
      unfold wait at hw
      rw [if_neg hn] at hw
      simp at hw
    -- the set
    have hset : ∃ f : Fds, (wait m poll (.ready r w x)).1.set k = reset { m.set k with ready := f } ∧
        ∀ i, regsRun (fun _ _ => false) ops k i = true → (f i = chosen k r w x i) := by
      have hex := mux_wait_examines_partial ops m rs h ha
      unfold wait
      rw [if_pos hcond]
      simp only []
      cases k
      · refine ⟨_, rfl, fun i hk => ?_⟩
        simp [(hex i).1, hk, chosen, (hex i).2.2.2 _ hk]
      · refine ⟨_, rfl, fun i hk => ?_⟩
        simp [(hex i).2.1, hk, chosen, (hex i).2.2.2 _ hk]
      · refine ⟨_, rfl, fun i hk => ?_⟩
        simp [(hex i).1, hk, chosen, (hex i).2.2.2 _ hk]
      · refine ⟨_, rfl, fun i hk => ?_⟩
        simp [(hex i).2.2.1, hk, chosen, (hex i).2.2.2 _ hk]
      · refine ⟨_, rfl, fun i hk => ?_⟩
        simp [(hex i).2.2.1, hk, chosen, (hex i).2.2.2 _ hk]
    obtain ⟨f, hset, hf⟩ := hset
    have hs := hi'.sets k
    have hact : ∀ i, ((wait m poll (.ready r w x)).1.set k).active i = regsRun (fun _ _ => false) ops k i := hi'.active k
    rw [hset] at hs hact ⊢
    have hrd : ∀ i, (reset { m.set k with ready := f }).ready i = f i := fun i => by rw [(reset_fields _).2.1]
    generalize hsd : reset { m.set k with ready := f } = s at *
    have hp := bounds_pos hs.bounds hs.small
    rcases hp with ⟨he, -, -⟩ | ⟨he, b1, b2, b3⟩
    · -- nothing is registered
      have : regsRun (fun _ _ => false) ops k i = false := by rw [← hact]; exact he i
      rw [this]
      simp only [Bool.false_eq_true, false_and, iff_false]
      unfold order
      split
      · simp
      · simp [he]
    · have hn : 0 ≤ s.next ∧ s.min ≤ s.next ∧ s.next ≤ s.max := by
        rcases hs.next with hn | hn
        · exfalso
          have f3 : s.max = (m.set k).max := by rw [← hsd, (reset_fields _).2.2.2]
          have f4 : s.min = (m.set k).min := by rw [← hsd, (reset_fields _).2.2.1]
          have : s.next ≥ 0 := by
            rw [← hsd]
            unfold reset
            split
            · rename_i h; exact h
            · split
              · rename_i h; simp only [] at h; omega
              · simp only []; omega
          omega
        · omega
      rw [order_eq hn.1, List.mem_filter, mem_around _ _ _ _ (by omega) (by omega), hact, hrd]
      constructor
      · rintro ⟨-, h2⟩
        simp only [Bool.and_eq_true] at h2
        exact ⟨h2.2, by rw [← hf i h2.2]; exact h2.1⟩
      · rintro ⟨h1, h2⟩
        have := hs.bounds.1 i (by rw [hact]; exact h1)
        refine ⟨by omega, ?_⟩
        rw [hf i h1, h1, h2]
        rfl

/-- C38: the order is that of the numbers, beginning after the descriptor that was returned last; if -1 was returned last, at the least. -/
theorem mux_ready_order (ops : List Op) (m : Mux) (rs : List Int) (h : run init ops = some (m, rs)) (k : Kind)
    (hc : Clean (m.set k)) (n : Nat) :
    drain (m.set k) n = some (((order (m.set k)).map (fun i : Nat => (i : Int)) ++ List.replicate n (-1)).take n) ∧
    ∀ m' r, step m (.ready k) = some (m', r) → r = -1 ∨
      (m'.set k).next = if r < (m.set k).max then r + 1 else (m.set k).min := by
  have hi := run_inv h
  refine ⟨drain_eq n _ (hi.sets k) hc, ?_⟩
  intro m' r hs
  simp only [step, Option.bind_eq_some_iff] at hs
  obtain ⟨q, hq, hs⟩ := hs
  simp only [Option.some.injEq, Prod.mk.injEq] at hs
  obtain ⟨-, -, -, -, -, i6⟩ := setReady_inv (hi.sets k) (s' := q.1) (r := q.2) hq
  rw [← hs.1, ← hs.2, put_same]
  rcases i6 with h | h
  · exact .inl h
  · exact .inr h.2.2.2

/-- C38: the condition holds for writing always. -/
theorem mux_write_clean (ops : List Op) (m : Mux) (rs : List Int) (h : run init ops = some (m, rs)) : Clean (m.set .write) :=
  fun i hr _ _ => (run_inv h).write i hr

/-- C38: the condition holds after a wait, if no descriptor of the set with which the descriptors are examined together is between the least
and the greatest descriptor of this set. -/
theorem mux_clean (ops : List Op) (m : Mux) (rs : List Int) (h : run init ops = some (m, rs))
    (ha : Apart (fun _ _ => false) ops) (poll : Bool) (r w x : Fds) (hw : (wait m poll (.ready r w x)).2 = 1) (k : Kind)
    (hb : ∀ j, sibling k = some j → ∀ i, regsRun (fun _ _ => false) ops j i = true → ¬ ((m.set k).min ≤ i ∧ (i : Int) ≤ (m.set k).max)) :
    Clean ((wait m poll (.ready r w x)).1.set k) := by
  have hi := run_inv h
  have hu := run_unions h ha
  have hcond : nfds m > 0 ∨ poll = false := Classical.byContradiction fun hn => by
    unfold wait at hw
    rw [if_neg hn] at hw
    simp at hw
  have key : ∀ (k j : Kind) (i : Nat) (a b : Bool),
      (a || b) = true → (a = true → regsRun (fun _ _ => false) ops k i = true) → (b = true → regsRun (fun _ _ => false) ops j i = true) →
      (regsRun (fun _ _ => false) ops j i = true → ¬ ((m.set k).min ≤ i ∧ (i : Int) ≤ (m.set k).max)) →
      (m.set k).min ≤ i → (i : Int) ≤ (m.set k).max → regsRun (fun _ _ => false) ops k i = true := by
    intro k j i a b h1 h2 h3 h4 h5 h6
    cases a
    · exact absurd ⟨h5, h6⟩ (h4 (h3 (by simpa using h1)))
    · exact h2 rfl
  intro i h1 h2 h3
  unfold wait at h1 h2 h3 ⊢
  rw [if_pos hcond] at h1 h2 h3 ⊢
  cases k <;>
    simp only [(reset_fields _).1, (reset_fields _).2.1, (reset_fields _).2.2.1, (reset_fields _).2.2.2, Bool.and_eq_true] at h1 h2 h3 ⊢
  · rw [hu.roa i] at h1
    rw [hi.active]
    exact key .read .accept i _ _ h1.1.1 id id (hb _ rfl i) h2 h3
  · exact h1.1.1
  · rw [hu.roa i, Bool.or_comm] at h1
    rw [hi.active]
    exact key .accept .read i _ _ h1.1.1 id id (hb _ rfl i) h2 h3
  · rw [hu.uoi i] at h1
    rw [hi.active]
    exact key .urgent .interrupt i _ _ h1.1.1 id id (hb _ rfl i) h2 h3
  · rw [hu.uoi i, Bool.or_comm] at h1
    rw [hi.active]
    exact key .interrupt .urgent i _ _ h1.1.1 id id (hb _ rfl i) h2 h3

/-- C38 is false in general: an accepting descriptor between two reading descriptors is ready, and the ready function for reading clears
the bit of descriptor -1, which is undefined behaviour. -/
theorem mux_ready_counterexample :
    ∃ m rs, run init [.register .read 4, .register .accept 5, .register .read 6,
        .wait false (.ready (fun i => i == 5) (fun _ => false) (fun _ => false))] = some (m, rs) ∧ step m (.ready .read) = none :=
  ⟨_, _, rfl, rfl⟩

/-- C38: after a wait that has failed, a descriptor that is not ready is returned, if the ones before have not all been returned. -/
theorem mux_error_counterexample :
    ∃ m rs, run init [.register .write 4, .wait false (.ready (fun _ => false) (fun _ => true) (fun _ => false)), .ready .write,
        .wait false .error, .ready .write] = some (m, rs) ∧ rs = [4, 1, 4, -1, 4] :=
  ⟨_, _, rfl, rfl⟩

/-- C39 is false in general: a descriptor that is registered for both reading and accepting is not examined once it has been unregistered
for reading. -/
theorem mux_wait_examines_counterexample :
    ∃ m rs, run init [.register .read 4, .register .accept 4, .unregister .read 4] = some (m, rs) ∧
      (m.set .accept).active 4 = true ∧ m.readOrAccept 4 = false :=
  ⟨_, _, rfl, rfl, rfl⟩

/-- A history with all kinds of calls, to which the theorems apply. -/
example : ∃ m, run init [.register .read 4, .register .read 7, .register .read 6, .register .write 6, .register .read 4,
        .unregister .read 7, .wait false (.ready (fun _ => true) (fun _ => true) (fun _ => false)), .ready .read, .ready .read, .ready .read,
        .close 4 true, .close 4 true] = some (m, [4, 7, 6, 6, -1, 7, 1, 4, 6, -1, 0, -2]) ∧
      (m.set .read).min = 6 ∧ (m.set .read).max = 6 :=
  ⟨_, rfl, rfl, rfl⟩

/-- A history that meets the conditions, with two reading descriptors and an accepting one. -/
example : Apart (fun _ _ => false) [.register .read 4, .register .read 6, .register .accept 9] ∧
    ∃ m rs, run init [.register .read 4, .register .read 6, .register .accept 9] = some (m, rs) ∧
      (∀ j, sibling .read = some j → ∀ i, regsRun (fun _ _ => false) [.register .read 4, .register .read 6, .register .accept 9] j i = true →
        ¬ ((m.set .read).min ≤ i ∧ (i : Int) ≤ (m.set .read).max)) ∧
      (wait m false (.ready (fun _ => true) (fun _ => false) (fun _ => false))).2 = 1 ∧
      drain ((wait m false (.ready (fun _ => true) (fun _ => false) (fun _ => false))).1.set .read) 4 = some [4, 6, -1, -1] := by
  refine ⟨?_, _, _, rfl, ?_, rfl, rfl⟩
  · simp only [Apart, Disjoint, regsAfter, Valid]
    refine ⟨?_, ?_, ?_, trivial⟩ <;> intro i <;> simp <;> omega
  · intro j hj i hi
    simp only [sibling, Option.some.injEq] at hj
    subst hj
    simp [regsRun, regsAfter, Valid] at hi
    subst hi
    exact fun h => absurd h.2 (by decide)

end Diminuto.Mux
