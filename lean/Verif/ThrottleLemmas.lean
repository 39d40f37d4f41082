import Verif.Throttle

/-!
# Helper lemmas on the Throttle
-/

namespace Diminuto.Throttle

/-- The throttle `s` has theoretical arrival time `tat`, its last commit having been at
time `last`; both are unbounded times in ticks. -/
def Rel (s : Throttle) (tat last : Nat) : Prop :=
  (s.expected = 0 ∧ tat ≤ last) ∨
  (s.then_ = BitVec.ofNat 64 last ∧ last ≤ tat ∧ s.expected.toNat = tat - last)

theorem request_rel (s : Throttle) (tat last t : Nat) (h : Rel s tat last) (hl : last ≤ t)
    (hg : t - last < 2 ^ 64) :
    (request s (BitVec.ofNat 64 t)).1.toNat = tat - t - s.limit.toNat ∧
    (request s (BitVec.ofNat 64 t)).2 =
      { s with now := BitVec.ofNat 64 t, actual := BitVec.ofNat 64 (tat - t),
               full0 := decide (t + s.limit.toNat < tat), empty0 := decide (tat ≤ t) } := by
  have hlim := s.limit.isLt
  rcases h with ⟨he, ht⟩ | ⟨hthen, hlt, he⟩
  · have h0 : tat - t = 0 := by omega
    have h1 : s.expected ≤ BitVec.ofNat 64 t - s.then_ := by
      rw [he, BitVec.le_def]; exact Nat.zero_le _
    unfold request
    simp only [h1, if_true]
    have e1 : decide (t + s.limit.toNat < tat) = false := by simp; omega
    have e2 : decide (tat ≤ t) = true := by simp; omega
    rw [e1, e2, h0]
    exact ⟨by simp, rfl⟩
  · have hexp := s.expected.isLt
    have hel : (BitVec.ofNat 64 t - s.then_).toNat = t - last := by
      rw [hthen, BitVec.toNat_sub]
      simp only [BitVec.toNat_ofNat]
      omega
    by_cases hle : tat ≤ t
    · have h1 : s.expected ≤ BitVec.ofNat 64 t - s.then_ := by
        rw [BitVec.le_def, hel, he]; omega
      unfold request
      simp only [h1, if_true]
      have h0 : tat - t = 0 := by omega
      have e1 : decide (t + s.limit.toNat < tat) = false := by simp; omega
      have e2 : decide (tat ≤ t) = true := by simp; omega
      rw [e1, e2, h0]
      exact ⟨by simp, rfl⟩
    · have h1 : ¬ s.expected ≤ BitVec.ofNat 64 t - s.then_ := by
        rw [BitVec.le_def, hel, he]; omega
      have ha : s.expected - (BitVec.ofNat 64 t - s.then_) = BitVec.ofNat 64 (tat - t) := by
        apply BitVec.eq_of_toNat_eq
        rw [BitVec.toNat_sub, hel, BitVec.toNat_ofNat]
        omega
      have han : (BitVec.ofNat 64 (tat - t)).toNat = tat - t := by
        rw [BitVec.toNat_ofNat]; omega
      have e2 : decide (tat ≤ t) = false := by simp; omega
      unfold request
      simp only [h1, if_false, ha]
      by_cases hc : t + s.limit.toNat < tat
      · have h2 : ¬ BitVec.ofNat 64 (tat - t) ≤ s.limit := by
          rw [BitVec.le_def, han]; omega
        have e1 : decide (t + s.limit.toNat < tat) = true := by simp; omega
        rw [e1, e2]
        simp only [h2, if_false]
        refine ⟨?_, by trivial⟩
        rw [BitVec.toNat_sub, han]
        omega
      · have h2 : BitVec.ofNat 64 (tat - t) ≤ s.limit := by
          rw [BitVec.le_def, han]; omega
        have e1 : decide (t + s.limit.toNat < tat) = false := by simp; omega
        rw [e1, e2]
        simp only [h2, if_true]
        refine ⟨?_, by trivial⟩
        simp
        omega

/-- The alarm state is determined by the last bucket states. -/
def AlarmInv (s : Throttle) : Prop :=
  (s.full1 = true → s.alarmed1 = true) ∧ (s.empty1 = true → s.alarmed1 = false)

theorem admitn_rel (s : Throttle) (tat last t n : Nat) (h : Rel s tat last) (ha : AlarmInv s)
    (hl : last ≤ t) (hg : t - last < 2 ^ 64) (hn : n < 2 ^ 64)
    (hd : max tat t + n * s.increment.toNat - t < 2 ^ 64) :
    Rel (admitn s (BitVec.ofNat 64 t) (BitVec.ofNat 64 n)).2 (max tat t + n * s.increment.toNat) t ∧
    AlarmInv (admitn s (BitVec.ofNat 64 t) (BitVec.ofNat 64 n)).2 ∧
    (admitn s (BitVec.ofNat 64 t) (BitVec.ofNat 64 n)).2.limit = s.limit ∧
    (admitn s (BitVec.ofNat 64 t) (BitVec.ofNat 64 n)).2.increment = s.increment ∧
    (admitn s (BitVec.ofNat 64 t) (BitVec.ofNat 64 n)).1 =
      (if tat ≤ t then false else if t + s.limit.toNat < tat then true else s.alarmed1) ∧
    (admitn s (BitVec.ofNat 64 t) (BitVec.ofNat 64 n)).2.alarmed1 =
      (admitn s (BitVec.ofNat 64 t) (BitVec.ofNat 64 n)).1 := by
  obtain ⟨_, hr⟩ := request_rel s tat last t h hl hg
  unfold admitn
  rw [hr]
  have hexp : (BitVec.ofNat 64 (tat - t) + BitVec.ofNat 64 n * s.increment).toNat =
      max tat t + n * s.increment.toNat - t := by
    rw [BitVec.toNat_add, BitVec.toNat_mul, BitVec.toNat_ofNat, BitVec.toNat_ofNat,
      Nat.mod_eq_of_lt hn]
    have h1 : n * s.increment.toNat < 2 ^ 64 := by omega
    rw [Nat.mod_eq_of_lt h1]
    have : max tat t = t + (tat - t) := by omega
    omega
  have hrel : ∀ a1 : Bool, Rel { s with
      now := BitVec.ofNat 64 t, actual := BitVec.ofNat 64 (tat - t),
      full0 := decide (t + s.limit.toNat < tat), empty0 := decide (tat ≤ t),
      then_ := BitVec.ofNat 64 t,
      expected := BitVec.ofNat 64 (tat - t) + BitVec.ofNat 64 n * s.increment,
      full2 := s.full1, full1 := decide (t + s.limit.toNat < tat),
      empty2 := s.empty1, empty1 := decide (tat ≤ t),
      alarmed2 := s.alarmed1, alarmed1 := a1 } (max tat t + n * s.increment.toNat) t :=
    fun a1 => Or.inr ⟨rfl, by omega, hexp⟩
  obtain ⟨ha1, ha2⟩ := ha
  unfold commitn
  simp only [emptied, filled]
  by_cases h1 : tat ≤ t
  · have h2 : ¬ t + s.limit.toNat < tat := by omega
    simp only [h1, h2, decide_true, decide_false, Bool.true_and, Bool.false_and,
      Bool.false_eq_true, if_false, if_true, Bool.not_eq_true']
    simp only [h1, h2, decide_true, decide_false] at hrel
    cases hem : s.empty1
    · simp only [if_true]
      rw [hem] at hrel
      exact ⟨hrel false, ⟨fun h => by simp at h, fun _ => rfl⟩, by trivial, by trivial, by trivial, by trivial⟩
    · simp only [Bool.true_eq_false, if_false]
      have := ha2 hem
      rw [hem] at hrel
      have hr := hrel s.alarmed1
      refine ⟨hr, ⟨fun h => by simp at h, fun _ => this⟩, ?_, ?_, this, ?_⟩ <;> trivial
  · simp only [h1, decide_false, Bool.false_and, Bool.false_eq_true, if_false]
    simp only [h1, decide_false] at hrel
    by_cases h2 : t + s.limit.toNat < tat
    · simp only [h2, decide_true, Bool.true_and, if_true, Bool.not_eq_true']
      simp only [h2, decide_true] at hrel
      cases hf : s.full1
      · simp only [if_true]
        rw [hf] at hrel
        exact ⟨hrel true, ⟨fun _ => rfl, fun h => by simp at h⟩, by trivial, by trivial, by trivial, by trivial⟩
      · simp only [Bool.true_eq_false, if_false]
        have := ha1 hf
        rw [hf] at hrel
        have hr := hrel s.alarmed1
        refine ⟨hr, ⟨fun _ => this, fun h => by simp at h⟩, ?_, ?_, this, ?_⟩ <;> trivial
    · simp only [h2, decide_false, Bool.false_and, Bool.false_eq_true, if_false]
      simp only [h2, decide_false] at hrel
      have hr := hrel s.alarmed1
      refine ⟨hr, ⟨fun h => by simp at h, fun h => by simp at h⟩, ?_, ?_, ?_, ?_⟩ <;> trivial

theorem init_rel (s : Throttle) (i l : Ticks) (t0 : Nat) :
    Rel (init s i l (BitVec.ofNat 64 t0)) t0 t0 ∧ AlarmInv (init s i l (BitVec.ofNat 64 t0)) ∧
    (init s i l (BitVec.ofNat 64 t0)).limit = l ∧ (init s i l (BitVec.ofNat 64 t0)).increment = i ∧
    (init s i l (BitVec.ofNat 64 t0)).alarmed1 = false :=
  ⟨Or.inl ⟨rfl, Nat.le_refl _⟩, ⟨fun h => by simp [init, reset] at h, fun _ => rfl⟩, rfl, rfl, rfl⟩

end Diminuto.Throttle
