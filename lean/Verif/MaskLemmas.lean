import Verif.MaskSpec

/-!
# Lemmas for the Uninterruptible Section feature
-/

namespace Diminuto.Mask

/-- One valid signal. -/
theorem valid_iff (n : Int) : valid n = true ↔ (1 ≤ n ∧ n ≤ 64) ∧ n ≠ 32 ∧ n ≠ 33 := by
  simp [valid, and_assoc]

/-- The set that is made. -/
theorem add_some : ∀ (signals : List Int) (set : Nat → Bool), Valid signals → ∃ r, add signals set = some r ∧ ∀ k : Nat, r k = true ↔ (k : Int) ∈ signals ∨ set k = true
  | [], set, _ => ⟨set, rfl, fun k => by simp⟩
  | n :: rest, set, h => by
    have hv : valid n = true := (valid_iff n).mpr (h n (by simp))
    obtain ⟨r, hr, hk⟩ := add_some rest (fun k => decide ((k : Int) = n) || set k) (fun m hm => h m (by simp [hm]))
    refine ⟨r, by rw [add, if_pos hv, hr], fun k => ?_⟩
    rw [hk]
    simp only [Bool.or_eq_true, decide_eq_true_eq, List.mem_cons]
    constructor
    · rintro (h | h | h)
      · exact Or.inl (Or.inr h)
      · exact Or.inl (Or.inl h)
      · exact Or.inr h
    · rintro ((h | h) | h)
      · exact Or.inr (Or.inl h)
      · exact Or.inl h
      · exact Or.inr (Or.inr h)

/-- None is made. -/
theorem add_none : ∀ (signals : List Int) (set : Nat → Bool), ¬ Valid signals → add signals set = none
  | [], _, h => absurd (fun n hn => by cases hn) h
  | n :: rest, set, h => by
    rw [add]
    by_cases hv : valid n = true
    · rw [if_pos hv]
      apply add_none
      intro hr
      refine h fun m hm => ?_
      rcases List.mem_cons.mp hm with rfl | hm
      · exact (valid_iff m).mp hv
      · exact hr m hm
    · rw [if_neg hv]

/-- What blocking does. -/
theorem block_some {signals : List Int} (h : Valid signals) {s : State} (hs : Sound s) : ∃ s', block signals s = some (s', s.mask) ∧ s'.handled = s.handled ∧ s'.pending = s.pending ∧
    ∀ k : Nat, s'.mask k = true ↔ s.mask k = true ∨ ((k : Int) ∈ signals ∧ k ≠ 9 ∧ k ≠ 19) := by
  obtain ⟨r, hr, hk⟩ := add_some signals (fun _ => false) h
  have hm : ∀ k, ((s.mask k || r k) && decide (k ≠ 9) && decide (k ≠ 19)) = true ↔ s.mask k = true ∨ ((k : Int) ∈ signals ∧ k ≠ 9 ∧ k ≠ 19) := by
    intro k
    have hk := hk k
    simp only [Bool.false_eq_true, or_false] at hk
    simp only [Bool.and_eq_true, Bool.or_eq_true, decide_eq_true_eq, hk]
    constructor
    · rintro ⟨⟨h | h, h1⟩, h2⟩
      · exact Or.inl h
      · exact Or.inr ⟨h, h1, h2⟩
    · rintro (h | ⟨h, h1, h2⟩)
      · refine ⟨⟨Or.inl h, ?_⟩, ?_⟩
        · rintro rfl; rw [hs.kill] at h; cases h
        · rintro rfl; rw [hs.stop] at h; cases h
      · exact ⟨⟨Or.inr h, h1⟩, h2⟩
  refine ⟨_, by rw [block, hr], ?_, ?_, hm⟩
  · show s.handled ++ _ = s.handled
    have : (List.range 65).filter (fun n => s.pending n && !((s.mask n || r n) && decide (n ≠ 9) && decide (n ≠ 19))) = [] := by
      rw [List.filter_eq_nil_iff]
      intro n _ h
      rw [Bool.and_eq_true] at h
      have := (hm n).mpr (Or.inl (hs.pending n h.1).1)
      rw [this] at h
      exact absurd h.2 (by decide)
    rw [this, List.append_nil]
  · funext n
    show (s.pending n && _) = s.pending n
    cases hp : s.pending n with
    | false => rfl
    | true => exact (hm n).mpr (Or.inl (hs.pending n hp).1)

/-- A sound mask is set as it is. -/
theorem setmask_mask {m : Nat → Bool} (h9 : m 9 = false) (h19 : m 19 = false) (s : State) : (setmask m s).mask = m := by
  funext n
  show (m n && decide (n ≠ 9) && decide (n ≠ 19)) = m n
  by_cases h : n = 9
  · subst h; rw [h9]; rfl
  · by_cases h' : n = 19
    · subst h'; rw [h19]; rfl
    · simp [h, h']

/-- Setting a mask keeps the state sound. -/
theorem setmask_sound (m : Nat → Bool) {s : State} (hs : Sound s) : Sound (setmask m s) where
  kill := by simp [setmask]
  stop := by simp [setmask]
  pending n h := by
    have h : (s.pending n && (m n && decide (n ≠ 9) && decide (n ≠ 19))) = true := h
    rw [Bool.and_eq_true] at h
    exact ⟨h.2, (hs.pending n h.1).2⟩

/-- A signal keeps it sound. -/
theorem send_sound {n : Nat} (hn : n ≤ 64) {s : State} (hs : Sound s) : Sound (send n s) := by
  unfold send
  by_cases h : s.mask n = true
  · rw [if_pos h]
    refine ⟨hs.kill, hs.stop, fun k hk => ?_⟩
    have hk : (decide (k = n) || s.pending k) = true := hk
    rw [Bool.or_eq_true, decide_eq_true_eq] at hk
    rcases hk with rfl | hk
    · exact ⟨h, hn⟩
    · exact hs.pending k hk
  · rw [if_neg h]
    exact ⟨hs.kill, hs.stop, hs.pending⟩

/-- Sound states remain so. -/
theorem run_sound : ∀ (p : Prog) (s : State), Signals p → Sound s → ∀ r, run p s = some r → Sound r.1
  | .nop, s, _, hs, r, h => by injection h with h; subst h; exact hs
  | .seq p q, s, hg, hs, r, h => by
    rw [run, Option.bind_eq_some_iff] at h
    obtain ⟨r1, h1, h2⟩ := h
    have hs1 := run_sound p s hg.1 hs r1 h1
    by_cases hc : r1.2 = true
    · rw [if_pos hc] at h2; injection h2 with h2; subst h2; exact hs1
    · rw [if_neg hc] at h2; exact run_sound q r1.1 hg.2 hs1 r h2
  | .send n, s, hg, hs, r, h => by injection h with h; subst h; exact send_sound hg hs
  | .mask m, s, _, hs, r, h => by injection h with h; subst h; exact setmask_sound m hs
  | .cancel, s, _, hs, r, h => by injection h with h; subst h; exact hs
  | .sect signals p, s, hg, hs, r, h => by
    rw [run, Option.bind_eq_some_iff] at h
    obtain ⟨b, h1, h2⟩ := h
    rw [Option.map_eq_some_iff] at h2
    obtain ⟨r1, h2, h3⟩ := h2
    subst h3
    have hb : Sound b.1 := by
      unfold block at h1
      split at h1
      · cases h1
      · injection h1 with h1; subst h1; exact setmask_sound _ hs
    exact setmask_sound _ (run_sound p b.1 hg hb r1 h2)
  | .attempt signals p, s, hg, hs, r, h => by
    rw [run] at h
    cases hbk : block signals s with
    | none => rw [hbk] at h; injection h with h; subst h; exact hs
    | some b =>
      rw [hbk] at h
      simp only [Option.map_eq_some_iff] at h
      obtain ⟨r1, h2, h3⟩ := h
      subst h3
      have hb : Sound b.1 := by
        unfold block at hbk
        split at hbk
        · cases hbk
        · injection hbk with h1; subst h1; exact setmask_sound _ hs
      exact setmask_sound _ (run_sound p b.1 hg hb r1 h2)

/-- A section that can be entered, either way. -/
theorem run_section {signals : List Int} (hv : Valid signals) (p : Prog) {s : State} (hs : Sound s) : ∃ s1, s1.handled = s.handled ∧ s1.pending = s.pending ∧ Sound s1 ∧
    (∀ k : Nat, s1.mask k = true ↔ s.mask k = true ∨ ((k : Int) ∈ signals ∧ k ≠ 9 ∧ k ≠ 19)) ∧ run (.sect signals p) s = (run p s1).map (fun r => (setmask s.mask r.1, r.2)) ∧
    run (.attempt signals p) s = (run p s1).map (fun r => (setmask s.mask r.1, r.2)) := by
  obtain ⟨s1, hb, h1, h2, h3⟩ := block_some hv hs
  have hb1 : Sound s1 := by
    unfold block at hb
    split at hb
    · cases hb
    · injection hb with hb; injection hb with hb _; subst hb; exact setmask_sound _ hs
  exact ⟨s1, h1, h2, hb1, h3, by simp only [run, hb, Option.bind_some], by simp only [run, hb]⟩

/-- What is handled is added to what has been, a plain program does not change the mask, and none of the blocked signals is handled by it. -/
theorem run_plain : ∀ (p : Prog) (s : State), Signals p → Plain p → Sound s → ∀ r, run p s = some r → r.1.mask = s.mask ∧ ∃ l, r.1.handled = s.handled ++ l ∧ ∀ n ∈ l, s.mask n = false
  | .nop, s, _, _, _, r, h => by injection h with h; subst h; exact ⟨rfl, [], by simp, by simp⟩
  | .seq p q, s, hg, hp, hs, r, h => by
    rw [run, Option.bind_eq_some_iff] at h
    obtain ⟨r1, h1, h2⟩ := h
    obtain ⟨m1, l1, e1, k1⟩ := run_plain p s hg.1 hp.1 hs r1 h1
    by_cases hc : r1.2 = true
    · rw [if_pos hc] at h2; injection h2 with h2; subst h2; exact ⟨m1, l1, e1, k1⟩
    · rw [if_neg hc] at h2
      obtain ⟨m2, l2, e2, k2⟩ := run_plain q r1.1 hg.2 hp.2 (run_sound p s hg.1 hs r1 h1) r h2
      refine ⟨m2.trans m1, l1 ++ l2, by rw [e2, e1, List.append_assoc], ?_⟩
      intro n hn
      rcases List.mem_append.mp hn with hn | hn
      · exact k1 n hn
      · rw [← m1]; exact k2 n hn
  | .send n, s, _, _, _, r, h => by
    injection h with h; subst h
    by_cases hm : s.mask n = true
    · refine ⟨?_, [], ?_, by simp⟩ <;> simp [send, hm]
    · refine ⟨?_, [n], ?_, ?_⟩
      · simp [send, hm]
      · simp [send, hm]
      · intro k hk; rw [List.mem_singleton] at hk; subst hk; simpa using hm
  | .mask m, s, _, hp, _, r, h => hp.elim
  | .cancel, s, _, _, _, r, h => by injection h with h; subst h; exact ⟨rfl, [], by simp, by simp⟩
  | .sect signals p, s, hg, hp, hs, r, h => by
    by_cases hv : Valid signals
    · obtain ⟨s1, e1, e2, hs1, hm, he, -⟩ := run_section hv p hs
      rw [he, Option.map_eq_some_iff] at h
      obtain ⟨r1, h1, h2⟩ := h
      subst h2
      exact finish p s s1 hg hp hs hs1 e1 (fun n h => by rw [hm]; exact Or.inl h) r1 h1 (run_plain p s1 hg hp hs1 r1 h1)
    · rw [run, block, add_none signals _ hv] at h; cases h
  | .attempt signals p, s, hg, hp, hs, r, h => by
    by_cases hv : Valid signals
    · obtain ⟨s1, e1, e2, hs1, hm, -, he⟩ := run_section hv p hs
      rw [he, Option.map_eq_some_iff] at h
      obtain ⟨r1, h1, h2⟩ := h
      subst h2
      exact finish p s s1 hg hp hs hs1 e1 (fun n h => by rw [hm]; exact Or.inl h) r1 h1 (run_plain p s1 hg hp hs1 r1 h1)
    · rw [run, block, add_none signals _ hv] at h; injection h with h; subst h; exact ⟨rfl, [], by simp, by simp⟩
where
  finish (p : Prog) (s s1 : State) (_hg : Signals p) (_hp : Plain p) (hs : Sound s) (_hs1 : Sound s1) (e1 : s1.handled = s.handled) (hm : ∀ n, s.mask n = true → s1.mask n = true) (r1 : State × Bool)
      (_h1 : run p s1 = some r1) (h : r1.1.mask = s1.mask ∧ ∃ l, r1.1.handled = s1.handled ++ l ∧ ∀ n ∈ l, s1.mask n = false) :
      (setmask s.mask r1.1).mask = s.mask ∧ ∃ l, (setmask s.mask r1.1).handled = s.handled ++ l ∧ ∀ n ∈ l, s.mask n = false := by
    obtain ⟨-, l, e, k⟩ := h
    have hmm := setmask_mask hs.kill hs.stop r1.1
    refine ⟨hmm, _, (by show r1.1.handled ++ _ = _; rw [e, e1, List.append_assoc]), ?_⟩
    intro n hn
    rcases List.mem_append.mp hn with hn | hn
    · cases hb : s.mask n with
      | false => rfl
      | true => have := k n hn; rw [hm n hb] at this; cases this
    · rw [List.mem_filter, Bool.and_eq_true] at hn
      have this : (!(s.mask n && decide (n ≠ 9) && decide (n ≠ 19))) = true := hn.2.2
      have e := congrFun hmm n
      have e : (s.mask n && decide (n ≠ 9) && decide (n ≠ 19)) = s.mask n := e
      rw [e] at this
      simpa using this

/-- A signal is known if it has been handled or is pending. -/
def known (n : Nat) (s : State) : Prop := n ∈ s.handled ∨ s.pending n = true

/-- How often a signal has been handled, and whether it is pending. -/
def score (n : Nat) (s : State) : Nat := s.handled.count n + if s.pending n then 1 else 0

/-- Setting a mask changes neither. -/
theorem setmask_score (m : Nat → Bool) {s : State} (hs : Sound s) (n : Nat) : score n (setmask m s) = score n s := by
  show (s.handled ++ (List.range 65).filter fun k => s.pending k && !(m k && decide (k ≠ 9) && decide (k ≠ 19))).count n + (if s.pending n && (m n && decide (n ≠ 9) && decide (n ≠ 19)) then 1 else 0) = _
  rw [List.count_append, score]
  cases hp : s.pending n with
  | false =>
    have : ((List.range 65).filter fun k => s.pending k && !(m k && decide (k ≠ 9) && decide (k ≠ 19))).count n = 0 := by
      rw [List.count_eq_zero, List.mem_filter]
      rintro ⟨-, h⟩
      rw [hp] at h; cases h
    rw [this]; rfl
  | true =>
    have hn := (hs.pending n hp).2
    cases hm : (m n && decide (n ≠ 9) && decide (n ≠ 19)) with
    | true =>
      have : ((List.range 65).filter fun k => s.pending k && !(m k && decide (k ≠ 9) && decide (k ≠ 19))).count n = 0 := by
        rw [List.count_eq_zero, List.mem_filter]
        rintro ⟨-, h⟩
        rw [hm, hp] at h; cases h
      rw [this]; rfl
    | false =>
      have : ((List.range 65).filter fun k => s.pending k && !(m k && decide (k ≠ 9) && decide (k ≠ 19))).count n = 1 := by
        rw [List.count_filter (by simp only [hm, hp]; rfl)]
        have h65 : ∀ k, k < 65 → (List.range 65).count k = 1 := by decide +kernel
        exact h65 n (by omega)
      rw [this]; rfl

/-- What a signal does to it. -/
theorem send_score (k : Nat) (s : State) (n : Nat) : (n ≠ k → score n (send k s) = score n s) ∧ 1 ≤ score k (send k s) ∧ score k s ≤ score k (send k s) ∧ score k (send k s) ≤ score k s + 1 := by
  unfold send score
  by_cases h : s.mask k = true
  · rw [if_pos h]
    refine ⟨fun hn => by simp [hn], ?_, ?_, ?_⟩
    · simp
    · simp only [decide_true, Bool.true_or, if_true]; split <;> omega
    · simp only [decide_true, Bool.true_or, if_true]; omega
  · rw [if_neg h]
    refine ⟨fun hn => ?_, ?_, ?_, ?_⟩
    · simp [List.count_append, Ne.symm hn]
    · simp [List.count_append]; omega
    · simp [List.count_append]
    · simp [List.count_append]; omega

/-- What a program does to it: a signal that has arrived is known, and it is counted at most as often as it has arrived. -/
theorem run_score : ∀ (p : Prog) (s : State), Signals p → Sound s → ∀ r, run p s = some r → r.2 = (arrived p).2 ∧
    ∀ n, score n s ≤ score n r.1 ∧ score n r.1 ≤ score n s + (arrived p).1.count n ∧ (n ∈ (arrived p).1 → 1 ≤ score n r.1)
  | .nop, s, _, _, r, h => by injection h with h; subst h; exact ⟨rfl, fun n => ⟨Nat.le_refl _, Nat.le_add_right _ _, fun h => by cases h⟩⟩
  | .seq p q, s, hg, hs, r, h => by
    rw [run, Option.bind_eq_some_iff] at h
    obtain ⟨r1, h1, h2⟩ := h
    obtain ⟨c1, k1⟩ := run_score p s hg.1 hs r1 h1
    by_cases hc : r1.2 = true
    · rw [if_pos hc] at h2; injection h2 with h2; subst h2
      rw [c1] at hc
      rw [arrived, if_pos hc]
      exact ⟨c1, k1⟩
    · rw [if_neg hc] at h2
      obtain ⟨c2, k2⟩ := run_score q r1.1 hg.2 (run_sound p s hg.1 hs r1 h1) r h2
      rw [c1] at hc
      rw [arrived, if_neg hc]
      refine ⟨c2, fun n => ?_⟩
      obtain ⟨a1, a2, a3⟩ := k1 n
      obtain ⟨b1, b2, b3⟩ := k2 n
      simp only [List.count_append, List.mem_append]
      refine ⟨by omega, by omega, ?_⟩
      rintro (h | h)
      · have := a3 h; omega
      · exact b3 h
  | .send k, s, _, _, r, h => by
    injection h with h; subst h
    refine ⟨rfl, fun n => ?_⟩
    by_cases he : n = k
    · subst he
      obtain ⟨-, h1, h2, h3⟩ := send_score n s n
      exact ⟨h2, by simpa [arrived] using h3, fun _ => h1⟩
    · have := (send_score k s n).1 he
      refine ⟨by rw [this]; exact Nat.le_refl _, by rw [this]; exact Nat.le_add_right _ _, ?_⟩
      intro h
      simp [arrived, he] at h
  | .mask m, s, _, hs, r, h => by
    injection h with h; subst h
    refine ⟨rfl, fun n => ?_⟩
    rw [setmask_score m hs]
    exact ⟨Nat.le_refl _, Nat.le_add_right _ _, fun h => by cases h⟩
  | .cancel, s, _, _, r, h => by injection h with h; subst h; exact ⟨rfl, fun n => ⟨Nat.le_refl _, Nat.le_add_right _ _, fun h => by cases h⟩⟩
  | .sect signals p, s, hg, hs, r, h => by
    by_cases hv : Valid signals
    · obtain ⟨s1, e1, e2, hs1, hm, he, -⟩ := run_section hv p hs
      rw [he, Option.map_eq_some_iff] at h
      obtain ⟨r1, h1, h2⟩ := h
      subst h2
      obtain ⟨c1, k1⟩ := run_score p s1 hg hs1 r1 h1
      refine ⟨c1, fun n => ?_⟩
      have := k1 n
      rw [setmask_score s.mask (run_sound p s1 hg hs1 r1 h1)]
      simpa only [score, e1, e2, arrived] using this
    · rw [run, block, add_none signals _ hv] at h; cases h
  | .attempt signals p, s, hg, hs, r, h => by
    by_cases hv : Valid signals
    · obtain ⟨s1, e1, e2, hs1, hm, -, he⟩ := run_section hv p hs
      rw [he, Option.map_eq_some_iff] at h
      obtain ⟨r1, h1, h2⟩ := h
      subst h2
      obtain ⟨c1, k1⟩ := run_score p s1 hg hs1 r1 h1
      rw [arrived, if_pos hv]
      refine ⟨c1, fun n => ?_⟩
      have := k1 n
      rw [setmask_score s.mask (run_sound p s1 hg hs1 r1 h1)]
      simpa only [score, e1, e2] using this
    · rw [run, block, add_none signals _ hv] at h; injection h with h; subst h
      rw [arrived, if_neg hv]
      exact ⟨rfl, fun n => ⟨Nat.le_refl _, Nat.le_add_right _ _, fun h => by cases h⟩⟩

/-- In a plain program a signal that is blocked becomes and remains pending. -/
theorem run_pending (n : Nat) : ∀ (p : Prog) (s : State), Signals p → Plain p → Sound s → s.mask n = true → ∀ r, run p s = some r → (s.pending n = true ∨ n ∈ (arrived p).1) → r.1.pending n = true
  | .nop, s, _, _, _, _, r, h, ha => by injection h with h; subst h; exact ha.elim id (fun ha => by cases ha)
  | .seq p q, s, hg, hp, hs, hm, r, h, ha => by
    rw [run, Option.bind_eq_some_iff] at h
    obtain ⟨r1, h1, h2⟩ := h
    have c1 := (run_score p s hg.1 hs r1 h1).1
    have m1 := (run_plain p s hg.1 hp.1 hs r1 h1).1
    by_cases hc : r1.2 = true
    · rw [if_pos hc] at h2; injection h2 with h2; subst h2
      rw [c1] at hc
      rw [arrived, if_pos hc] at ha
      exact run_pending n p s hg.1 hp.1 hs hm _ h1 ha
    · rw [if_neg hc] at h2
      rw [c1] at hc
      rw [arrived, if_neg hc] at ha
      simp only [List.mem_append] at ha
      refine run_pending n q r1.1 hg.2 hp.2 (run_sound p s hg.1 hs r1 h1) (by rw [m1]; exact hm) r h2 ?_
      rcases ha with ha | ha | ha
      · exact Or.inl (run_pending n p s hg.1 hp.1 hs hm r1 h1 (Or.inl ha))
      · exact Or.inl (run_pending n p s hg.1 hp.1 hs hm r1 h1 (Or.inr ha))
      · exact Or.inr ha
  | .send k, s, _, _, _, hm, r, h, ha => by
    injection h with h; subst h
    simp only [arrived, List.mem_singleton] at ha
    unfold send
    split
    · show (decide (n = k) || s.pending n) = true
      rw [Bool.or_eq_true, decide_eq_true_eq]; exact ha.symm
    · rename_i hk
      rcases ha with ha | ha
      · exact ha
      · subst ha; exact absurd hm hk
  | .mask m, s, _, hp, _, _, r, h, _ => hp.elim
  | .cancel, s, _, _, _, _, r, h, ha => by injection h with h; subst h; exact ha.elim id (fun ha => by cases ha)
  | .sect signals p, s, hg, hp, hs, hm, r, h, ha => by
    by_cases hv : Valid signals
    · obtain ⟨s1, e1, e2, hs1, hm1, he, -⟩ := run_section hv p hs
      rw [he, Option.map_eq_some_iff] at h
      obtain ⟨r1, h1, h2⟩ := h
      subst h2
      have := run_pending n p s1 hg hp hs1 ((hm1 n).mpr (Or.inl hm)) r1 h1 (by rw [e2]; exact ha)
      show (r1.1.pending n && (setmask s.mask r1.1).mask n) = true
      rw [this, setmask_mask hs.kill hs.stop, hm]; rfl
    · rw [run, block, add_none signals _ hv] at h; cases h
  | .attempt signals p, s, hg, hp, hs, hm, r, h, ha => by
    by_cases hv : Valid signals
    · obtain ⟨s1, e1, e2, hs1, hm1, -, he⟩ := run_section hv p hs
      rw [he, Option.map_eq_some_iff] at h
      obtain ⟨r1, h1, h2⟩ := h
      subst h2
      rw [arrived, if_pos hv] at ha
      have := run_pending n p s1 hg hp hs1 ((hm1 n).mpr (Or.inl hm)) r1 h1 (by rw [e2]; exact ha)
      show (r1.1.pending n && (setmask s.mask r1.1).mask n) = true
      rw [this, setmask_mask hs.kill hs.stop, hm]; rfl
    · rw [run, block, add_none signals _ hv] at h; injection h with h; subst h
      rw [arrived, if_neg hv] at ha
      exact ha.elim id (fun ha => by cases ha)

end Diminuto.Mask
