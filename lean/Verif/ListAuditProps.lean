import Verif.ListProps

/-!
# Properties of the List: the audit (C23)
-/

namespace Diminuto.DList

variable {N : Nat}

/-- What the audit checks of one node. -/
def Ok (h : Heap N) (r y : Node N) : Prop :=
  h.root y = r ∧ h.prev (h.next y) = y ∧ h.next (h.prev y) = y

theorem auditLoop_none (h : Heap N) (r : Node N) (limit : Nat) : ∀ (a b : Node N),
    auditLoop h r limit a b = none ↔
      ∃ k, 0 < k ∧ k < limit ∧ (∀ i < k, Ok h r (h.next^[i] a) ∧ Ok h r (h.prev^[i] b)) ∧
        h.next^[k] a = h.prev^[k] b ∧ ∀ i, 0 < i → i < k → h.next^[i] a ≠ h.prev^[i] b := by
  induction limit with
  | zero =>
    intro a b
    rw [auditLoop.eq_def]
    simp only []
    constructor
    · intro hn
      split at hn
      · simp at hn
      · split at hn <;> simp at hn
    · rintro ⟨k, _, h2, _⟩
      omega
  | succ limit ih =>
    intro a b
    rw [auditLoop.eq_def]
    simp only []
    by_cases hA : h.root a ≠ r ∨ h.prev (h.next a) ≠ a ∨ h.next (h.prev a) ≠ a
    · rw [if_pos hA]
      constructor
      · intro hn; simp at hn
      · rintro ⟨k, h1, _, h3, _⟩
        obtain ⟨⟨o1, o2, o3⟩, _⟩ := h3 0 h1
        simp only [Function.iterate_zero, id_eq] at o1 o2 o3
        rcases hA with h | h | h
        · exact absurd o1 h
        · exact absurd o2 h
        · exact absurd o3 h
    · rw [if_neg hA]
      by_cases hB : h.root b ≠ r ∨ h.next (h.prev b) ≠ b ∨ h.prev (h.next b) ≠ b
      · rw [if_pos hB]
        constructor
        · intro hn; simp at hn
        · rintro ⟨k, h1, _, h3, _⟩
          obtain ⟨_, ⟨o1, o2, o3⟩⟩ := h3 0 h1
          simp only [Function.iterate_zero, id_eq] at o1 o2 o3
          rcases hB with h | h | h
          · exact absurd o1 h
          · exact absurd o3 h
          · exact absurd o2 h
      · rw [if_neg hB]
        simp only [ne_eq, not_or, Decidable.not_not] at hA hB
        have okA : Ok h r a := ⟨hA.1, hA.2.1, hA.2.2⟩
        have okB : Ok h r b := ⟨hB.1, hB.2.2, hB.2.1⟩
        cases limit with
        | zero =>
          constructor
          · intro hn; simp at hn
          · rintro ⟨k, h1, h2, _⟩; omega
        | succ limit =>
          simp only
          by_cases hm : h.next a = h.prev b
          · rw [if_pos hm]
            refine ⟨fun _ => ⟨1, by omega, by omega, ?_, hm, fun i h1 h2 => by omega⟩, fun _ => rfl⟩
            intro i hi
            obtain rfl : i = 0 := by omega
            exact ⟨okA, okB⟩
          · rw [if_neg hm, ih]
            constructor
            · rintro ⟨k, h1, h2, h3, h4, h5⟩
              refine ⟨k + 1, by omega, by omega, ?_, ?_, ?_⟩
              · intro i hi
                cases i with
                | zero => exact ⟨okA, okB⟩
                | succ i => exact h3 i (by omega)
              · exact h4
              · intro i hi1 hi2
                cases i with
                | zero => omega
                | succ i =>
                  cases i with
                  | zero => exact hm
                  | succ i => exact h5 (i + 1) (by omega) (by omega)
            · rintro ⟨k, h1, h2, h3, h4, h5⟩
              cases k with
              | zero => omega
              | succ k =>
                cases k with
                | zero => exact absurd h4 hm
                | succ k =>
                  refine ⟨k + 1, by omega, by omega, fun i hi => h3 (i + 1) (by omega), h4, ?_⟩
                  intro i hi1 hi2
                  exact h5 (i + 1) (by omega) (by omega)

/-- The ring through `x` as the next links give it: following them comes back to `x` first after
`m` steps, and the previous links on the way are the inverse. -/
def RingFrom (h : Heap N) (x : Node N) (m : Nat) : Prop :=
  0 < m ∧ h.next^[m] x = x ∧ (∀ i, 0 < i → i < m → h.next^[i] x ≠ x) ∧
    ∀ i < m, h.prev (h.next^[i + 1] x) = h.next^[i] x

/-- How many steps it takes two walkers in opposite directions to meet on a ring of `m`. -/
def meet (m : Nat) : Nat := if m % 2 = 0 then m / 2 else m

theorem ringFrom_period {h : Heap N} {x : Node N} {m : Nat} (hr : RingFrom h x m) :
    Function.minimalPeriod h.next x = m := by
  obtain ⟨h1, h2, h3, _⟩ := hr
  have hp : Function.IsPeriodicPt h.next m x := h2
  have hle := hp.minimalPeriod_le h1
  have hpos := hp.minimalPeriod_pos h1
  by_contra hne
  exact h3 _ hpos (by omega) (Function.isPeriodicPt_minimalPeriod h.next x)

theorem ringFrom_inv {h : Heap N} {x : Node N} {m : Nat} (hr : RingFrom h x m) (i : Nat) :
    h.prev (h.next^[i + 1] x) = h.next^[i] x := by
  obtain ⟨h1, h2, h3, h4⟩ := hr
  have hp : Function.IsPeriodicPt h.next m x := h2
  have e1 : h.next^[i] x = h.next^[i % m] x := (hp.iterate_mod_apply i).symm
  have e2 : h.next^[i + 1] x = h.next^[i % m + 1] x := by
    rw [Function.iterate_succ_apply', e1, ← Function.iterate_succ_apply' h.next]
  rw [e1, e2]
  exact h4 _ (Nat.mod_lt _ h1)

theorem ringFrom_prev {h : Heap N} {x : Node N} {m : Nat} (hr : RingFrom h x m) (i j : Nat) :
    h.prev^[i] (h.next^[i + j] x) = h.next^[j] x := by
  induction i with
  | zero => simp
  | succ i ih =>
    rw [Function.iterate_succ_apply, show i + 1 + j = (i + j) + 1 by omega, ringFrom_inv hr]
    exact ih

theorem ringFrom_prev_back {h : Heap N} {x : Node N} {m : Nat} (hr : RingFrom h x m) (i q : Nat)
    (hi : i ≤ q * m) : h.prev^[i] x = h.next^[q * m - i] x := by
  have hp : Function.IsPeriodicPt h.next m x := hr.2.1
  have h1 : h.next^[q * m] x = x := by
    rw [Nat.mul_comm]; exact hp.mul_const q
  have := ringFrom_prev hr i (q * m - i)
  rw [show i + (q * m - i) = q * m by omega, h1] at this
  exact this

theorem ringFrom_meet {h : Heap N} {x : Node N} {m : Nat} (hr : RingFrom h x m) (i : Nat) :
    h.next^[i] x = h.prev^[i] x ↔ m ∣ 2 * i := by
  have hper := ringFrom_period hr
  have hm := hr.1
  constructor
  · intro he
    have h1 : h.next^[i + i] x = x := by
      have hb := ringFrom_prev_back hr i i (Nat.le_mul_of_pos_right i hm)
      rw [Function.iterate_add_apply, he, hb, ← Function.iterate_add_apply]
      have hp : Function.IsPeriodicPt h.next m x := hr.2.1
      rw [show i + (i * m - i) = i * m by
        have := Nat.le_mul_of_pos_right i hm; omega, Nat.mul_comm]
      exact hp.mul_const i
    rw [← hper]
    apply Function.IsPeriodicPt.minimalPeriod_dvd
    rw [show 2 * i = i + i by omega]
    exact h1
  · rintro ⟨q, hq⟩
    have hb := ringFrom_prev_back hr i q (by rw [Nat.mul_comm]; omega)
    rw [hb, Nat.mul_comm q m, ← hq, show 2 * i - i = i by omega]

theorem ringFrom_ok_iff {h : Heap N} {x : Node N} {m : Nat} (hr : RingFrom h x m) (r : Node N)
    (i : Nat) : Ok h r (h.next^[i] x) ↔ h.root (h.next^[i] x) = r := by
  constructor
  · intro ho; exact ho.1
  · intro ho
    refine ⟨ho, ?_, ?_⟩
    · rw [← Function.iterate_succ_apply' h.next]; exact ringFrom_inv hr i
    · have hp : Function.IsPeriodicPt h.next m x := hr.2.1
      have hm := hr.1
      have e : h.next^[i] x = h.next^[(i + m - 1) + 1] x := by
        rw [show i + m - 1 + 1 = i + m by omega, Function.iterate_add_apply, hr.2.1]
      rw [e, ringFrom_inv hr, ← Function.iterate_succ_apply' h.next]

/-- **C23 (what the audit accepts).** For every heap of nodes, well-formed or not, the audit of a
node returns null exactly if: the next links from it lead back to it, after some number `m` of
steps; the previous links are their inverse all the way; every node of the ring has the same
root, *except possibly the one opposite to it* if `m` is even; and the number of steps to check
that is less than the limit. -/
theorem list_audit_exact (h : Heap N) (limit : Nat) (x : Node N) :
    audit h limit x = none ↔
      ∃ m, RingFrom h x m ∧ (∀ i < m, 2 * i ≠ m → h.root (h.next^[i] x) = h.root x) ∧
        meet m < limit := by
  unfold audit
  rw [auditLoop_none]
  constructor
  · rintro ⟨k, k1, k2, k3, k4, k5⟩
    -- the previous links walked are the inverse of next
    have hpn : ∀ i, i ≤ k → h.next^[i] (h.prev^[i] x) = x := by
      intro i
      induction i with
      | zero => intro _; rfl
      | succ i ih =>
        intro hi
        rw [Function.iterate_succ_apply, Function.iterate_succ_apply' h.prev,
          ((k3 i (by omega)).2).2.2]
        exact ih (by omega)
    have hback : ∀ i, i ≤ k → h.next^[2 * k - i] x = h.prev^[i] x := by
      intro i hi
      have h1 : h.next^[2 * k - i] x = h.next^[k - i] (h.next^[k] x) := by
        rw [← Function.iterate_add_apply]; congr 2; omega
      rw [h1, k4]
      -- go forward k - i from prev^[k] x
      have : ∀ j, j ≤ k → h.next^[j] (h.prev^[k] x) = h.prev^[k - j] x := by
        intro j
        induction j with
        | zero => intro _; rfl
        | succ j ih =>
          intro hj
          rw [Function.iterate_succ_apply', ih (by omega),
            show k - j = (k - (j + 1)) + 1 by omega, Function.iterate_succ_apply',
            ((k3 (k - (j + 1)) (by omega)).2).2.2]
      rw [this _ (by omega)]
      congr 2
      omega
    have hper : h.next^[2 * k] x = x := by
      have := hback 0 (by omega)
      simpa using this
    have hinv : ∀ i < 2 * k, h.prev (h.next^[i + 1] x) = h.next^[i] x := by
      intro i hi
      by_cases hik : i < k
      · rw [Function.iterate_succ_apply']; exact (k3 i hik).1.2.1
      · have h1 := hback (2 * k - (i + 1)) (by omega)
        have h2 := hback (2 * k - i) (by omega)
        rw [show 2 * k - (2 * k - (i + 1)) = i + 1 by omega] at h1
        rw [show 2 * k - (2 * k - i) = i by omega] at h2
        rw [h1, h2, ← Function.iterate_succ_apply' h.prev]
        congr 2
        omega
    have hP : Function.IsPeriodicPt h.next (2 * k) x := hper
    have hmpos := hP.minimalPeriod_pos (show 0 < 2 * k by omega)
    have hmdvd := hP.minimalPeriod_dvd
    have hmle := Nat.le_of_dvd (by omega) hmdvd
    have hRF : RingFrom h x (Function.minimalPeriod h.next x) := by
      refine ⟨hmpos, Function.isPeriodicPt_minimalPeriod h.next x, ?_, ?_⟩
      · intro i hi1 hi2 he
        have : Function.IsPeriodicPt h.next i x := he
        have := this.minimalPeriod_le hi1
        omega
      · intro i hi; exact hinv i (by omega)
    generalize Function.minimalPeriod h.next x = m at hRF hmdvd hmle hmpos
    refine ⟨m, hRF, ?_, ?_⟩
    · intro i hi hne
      by_cases hik : i < k
      · exact (k3 i hik).1.1
      · obtain ⟨q, hq⟩ := hmdvd
        have hq1 : q = 1 := by
          have hq0 : 0 < q := by
            rcases Nat.eq_zero_or_pos q with h0 | h0
            · subst h0; omega
            · exact h0
          by_contra hq2
          have : m * 2 ≤ m * q := Nat.mul_le_mul_left m (by omega)
          omega
        subst hq1
        have h1 := hback (2 * k - i) (by omega)
        rw [show 2 * k - (2 * k - i) = i by omega] at h1
        rw [h1]
        exact ((k3 (2 * k - i) (by omega)).2).1
    · -- the first meeting is at k
      have hk : m ∣ 2 * k := hmdvd
      have hmeet : meet m ≤ k := by
        obtain ⟨q, hq⟩ := hk
        unfold meet
        split
        · have : q ≠ 0 := by rintro rfl; omega
          have : m * 1 ≤ m * q := Nat.mul_le_mul_left m (by omega)
          omega
        · rename_i hodd
          have hq2 : q % 2 = 0 := by
            have : (m * q) % 2 = 0 := by omega
            rw [Nat.mul_mod] at this
            have hm1 : m % 2 = 1 := by omega
            rw [hm1] at this
            omega
          have : q ≠ 0 := by rintro rfl; omega
          have : m * 2 ≤ m * q := Nat.mul_le_mul_left m (by omega)
          omega
      omega
  · rintro ⟨m, hr, hroot, hlim⟩
    have hm := hr.1
    have hmm : m ∣ 2 * meet m ∧ 0 < meet m ∧ ∀ i, 0 < i → i < meet m → ¬ m ∣ 2 * i := by
      unfold meet
      split
      · rename_i he
        refine ⟨⟨1, by omega⟩, by omega, ?_⟩
        intro i hi1 hi2 hd
        have := Nat.le_of_dvd (by omega) hd
        omega
      · rename_i ho
        refine ⟨⟨2, by omega⟩, hm, ?_⟩
        intro i hi1 hi2 ⟨q, hq⟩
        have hq2 : q % 2 = 0 := by
          have : (m * q) % 2 = 0 := by omega
          rw [Nat.mul_mod] at this
          have hm1 : m % 2 = 1 := by omega
          rw [hm1] at this
          omega
        have : q ≠ 0 := by rintro rfl; omega
        have : m * 2 ≤ m * q := Nat.mul_le_mul_left m (by omega)
        omega
    have hle : meet m ≤ m := by unfold meet; split <;> omega
    refine ⟨meet m, hmm.2.1, hlim, ?_, (ringFrom_meet hr _).mpr hmm.1, ?_⟩
    · intro i hi
      have h2i : i = 0 ∨ 2 * i ≠ m := by
        by_cases h0 : i = 0
        · exact Or.inl h0
        · refine Or.inr (fun he => ?_)
          exact hmm.2.2 i (by omega) hi ⟨1, by omega⟩
      refine ⟨?_, ?_⟩
      · rw [ringFrom_ok_iff hr]
        rcases h2i with rfl | h2i
        · rfl
        · exact hroot i (by omega) h2i
      · rw [ringFrom_prev_back hr i 1 (by omega), ringFrom_ok_iff hr, Nat.one_mul]
        rcases h2i with rfl | h2i
        · rw [Nat.sub_zero, hr.2.1]
        · rcases Nat.eq_zero_or_pos i with rfl | hi0
          · rw [Nat.sub_zero, hr.2.1]
          · exact hroot (m - i) (by omega) (by omega)
    · intro i hi1 hi2 he
      exact hmm.2.2 i hi1 hi2 ((ringFrom_meet hr i).mp he)

/-- **C23 (no false alarms).** On a well-formed heap the audit of any node returns null, provided the
limit, by default the greatest `int`, is more than the number of nodes. -/
theorem list_audit_complete_partial (h : Heap N) (limit : Nat) (x : Node N) (hw : WellFormed h)
    (hl : N < limit) : audit h limit x = none := by
  rw [list_audit_exact]
  have hinj : Function.Injective h.next := fun a b he => by
    rw [← (hw a).1, he, (hw b).1]
  have hroots : ∀ i, h.root (h.next^[i] x) = h.root x := by
    intro i
    induction i with
    | zero => rfl
    | succ i ih => rw [Function.iterate_succ_apply', (hw _).2.2.1, ih]
  -- two of the first N + 1 nodes walked are the same
  obtain ⟨i, j, hij, hji, heq⟩ : ∃ i j : Nat, i < j ∧ j ≤ N ∧ h.next^[i] x = h.next^[j] x := by
    by_contra hcon
    have hf : Function.Injective (fun i : Fin (N + 1) => h.next^[i.val] x) := by
      intro a b he
      rcases Nat.lt_trichotomy a.val b.val with h1 | h1 | h1
      · exact absurd ⟨a.val, b.val, h1, by omega, he⟩ hcon
      · exact Fin.ext h1
      · exact absurd ⟨b.val, a.val, h1, by omega, he.symm⟩ hcon
    have := Fintype.card_le_of_injective _ hf
    simp at this
  have hper : Function.IsPeriodicPt h.next (j - i) x := by
    have h1 : h.next^[i] (h.next^[j - i] x) = h.next^[i] x := by
      rw [← Function.iterate_add_apply, show i + (j - i) = j by omega, heq]
    exact hinj.iterate i h1
  have hpos := hper.minimalPeriod_pos (show 0 < j - i by omega)
  have hle := hper.minimalPeriod_le (show 0 < j - i by omega)
  refine ⟨Function.minimalPeriod h.next x,
    ⟨hpos, Function.isPeriodicPt_minimalPeriod h.next x, ?_, ?_⟩, ?_, ?_⟩
  · intro a ha1 ha2 he
    have : Function.IsPeriodicPt h.next a x := he
    have := this.minimalPeriod_le ha1
    omega
  · intro a _
    rw [Function.iterate_succ_apply']
    exact (hw _).1
  · intro a _ _; exact hroots a
  · unfold meet
    split <;> omega

/-- **C23 (soundness, as far as it goes).** If the audit returns null then, on the ring that the
node is on, the links are mutually inverse; and the roots are all the same if the number of
nodes is odd.  Missing: the root of the opposite node if it is even, and that the common
root is on the ring. -/
theorem list_audit_sound_partial (h : Heap N) (limit : Nat) (x : Node N)
    (ha : audit h limit x = none) :
    ∃ m, RingFrom h x m ∧
      (∀ i, h.prev (h.next^[i + 1] x) = h.next^[i] x) ∧
      (m % 2 = 1 → ∀ i, h.root (h.next^[i] x) = h.root x) := by
  rw [list_audit_exact] at ha
  obtain ⟨m, hr, h2, _⟩ := ha
  refine ⟨m, hr, ringFrom_inv hr, ?_⟩
  intro hodd i
  have hp : Function.IsPeriodicPt h.next m x := hr.2.1
  rw [← hp.iterate_mod_apply i]
  exact h2 _ (Nat.mod_lt _ hr.1) (by omega)

/-- A ring of two nodes of which the second has a root of its own. -/
def oddRoot : Heap 2 :=
  { next := fun x => 1 - x, prev := fun x => 1 - x, root := fun x => x }

/-- A node on its own of which the root is another node. -/
def strayRoot : Heap 2 :=
  { next := fun x => x, prev := fun x => x, root := fun _ => 1 }

/-- **C23 is false** of the code: a ring whose nodes disagree about the root, and a ring whose
root is not on it, both pass the audit. -/
theorem list_audit_counterexample :
    (audit oddRoot 100 0 = none ∧ oddRoot.root (oddRoot.next 0) ≠ oddRoot.root 0) ∧
    (audit strayRoot 100 0 = none ∧ ∀ k, strayRoot.next^[k] 0 ≠ strayRoot.root 0) := by
  refine ⟨by decide, by decide, ?_⟩
  intro k
  have : strayRoot.next^[k] (0 : Fin 2) = 0 := by
    induction k with
    | zero => rfl
    | succ k ih => rw [Function.iterate_succ_apply', ih]; rfl
  rw [this]
  decide

/-- Corruptions that are found: a bad root on a ring of three, a bad link on a ring of two. -/
example :
    audit ({ next := fun x => x + 1, prev := fun x => x - 1, root := fun x => if x = 2 then 2 else 0 }
      : Heap 3) 100 0 = some 2 ∧
    audit ({ next := fun x => 1 - x, prev := fun x => x, root := fun _ => 0 } : Heap 2) 100 0 = some 0 ∧
    WellFormed (fresh 3) ∧ audit (fresh 3) 100 1 = none := by
  refine ⟨by decide, by decide, rep_wellFormed (fresh_rep 3), by decide⟩

end Diminuto.DList
