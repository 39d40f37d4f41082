import Verif.Memory

/-!
# Lemmas about the Memory feature
-/

namespace Diminuto.Memory

theorem shiftLeft_one_toNat (p : BitVec 64) : (p <<< 1).toNat = 2 * p.toNat % 2 ^ 64 := by
  simp only [BitVec.toNat_shiftLeft, Nat.shiftLeft_eq]
  omega

/-- The loop from `2 ^ k`, `k ≤ 63`, on. -/
theorem powerLoop_spec (a : BitVec 64) (fuel : Nat) : ∀ (k : Nat) (p : BitVec 64), k ≤ 63 →
    65 ≤ fuel + k → p.toNat = 2 ^ k → (k = 0 ∨ 2 ^ (k - 1) < a.toNat) →
    ∃ r, powerLoop a fuel p = some r ∧
      ((r = 0 ∧ 2 ^ 63 < a.toNat) ∨
        ∃ j, r.toNat = 2 ^ j ∧ a.toNat ≤ 2 ^ j ∧ (j = 0 ∨ 2 ^ (j - 1) < a.toNat)) := by
  induction fuel with
  | zero => intro k p h1 h2; omega
  | succ fuel ih =>
    intro k p h1 h2 h3 h4
    have hpos : 0 < 2 ^ k := Nat.two_pow_pos k
    unfold powerLoop
    by_cases hc : p < a
    · rw [if_pos ⟨by rw [BitVec.lt_def, h3]; simpa using hpos, hc⟩]
      rw [BitVec.lt_def, h3] at hc
      by_cases hk : k = 63
      · subst hk
        have hz : p <<< 1 = 0 := by
          apply BitVec.eq_of_toNat_eq
          rw [shiftLeft_one_toNat, h3]
          rfl
        rw [hz]
        obtain ⟨f, rfl⟩ : ∃ f, fuel = f + 1 := ⟨fuel - 1, by omega⟩
        unfold powerLoop
        rw [if_neg (by simp)]
        exact ⟨0, rfl, Or.inl ⟨rfl, hc⟩⟩
      · refine ih (k + 1) (p <<< 1) (by omega) (by omega) ?_ (Or.inr (by simpa using hc))
        rw [shiftLeft_one_toNat, h3, Nat.pow_succ, Nat.mul_comm]
        apply Nat.mod_eq_of_lt
        have : 2 ^ (k + 1) ≤ 2 ^ 63 := Nat.pow_le_pow_right (by omega) (by omega)
        rw [Nat.pow_succ] at this
        omega
    · rw [if_neg (fun h => hc h.2)]
      refine ⟨p, rfl, Or.inr ⟨k, h3, ?_, h4⟩⟩
      rw [BitVec.lt_def, h3] at hc
      omega

/-- The number of ones in the binary representation. -/
def ones : Nat → Nat → Nat
  | 0, _ => 0
  | fuel + 1, n => n % 2 + ones fuel (n / 2)

theorem bitsLoop_spec (fuel : Nat) : ∀ (v : BitVec 64) (bits : Nat), v.toNat < 2 ^ fuel →
    bitsLoop (fuel + 1) v bits = some (bits + ones fuel v.toNat) := by
  induction fuel with
  | zero =>
    intro v bits h
    have : v = 0 := BitVec.eq_of_toNat_eq (by simp at h ⊢; omega)
    subst this
    rfl
  | succ fuel ih =>
    intro v bits h
    unfold bitsLoop
    by_cases hv : v = 0
    · subst hv
      rw [if_neg (by decide)]
      have : ∀ n, ones n 0 = 0 := by
        intro n; induction n with
        | zero => rfl
        | succ n ih => simp [ones, ih]
      simp [this]
    · have hn : v.toNat ≠ 0 := fun e => hv (BitVec.eq_of_toNat_eq (by simpa using e))
      rw [if_pos (by rw [gt_iff_lt, BitVec.lt_def]; simp; omega)]
      have e : (v >>> 1).toNat = v.toNat / 2 := by
        simp [BitVec.toNat_ushiftRight, Nat.shiftRight_eq_div_pow]
      rw [ih _ _ (by rw [e]; rw [Nat.pow_succ] at h; omega), e]
      have hb : (v &&& 1 ≠ 0) ↔ v.toNat % 2 = 1 := by
        rw [ne_eq, ← BitVec.toNat_inj]
        have : (v &&& 1#64).toNat = v.toNat % 2 := by
          rw [BitVec.toNat_and]
          show v.toNat &&& 1 = _
          exact Nat.and_one_is_mod _
        simp only [BitVec.ofNat_eq_ofNat]
        rw [this]
        simp
      congr 1
      by_cases h2 : v.toNat % 2 = 1
      · rw [if_pos (hb.2 h2), ones]; omega
      · rw [if_neg (fun h => h2 (hb.1 h)), ones]; omega

theorem ones_zero (fuel n : Nat) (h : n < 2 ^ fuel) : ones fuel n = 0 ↔ n = 0 := by
  induction fuel generalizing n with
  | zero => simp [ones] at h ⊢; omega
  | succ fuel ih =>
    rw [Nat.pow_succ] at h
    have := ih (n / 2) (by omega)
    unfold ones
    omega

theorem ones_one (fuel n : Nat) (h : n < 2 ^ fuel) : ones fuel n = 1 ↔ ∃ k, n = 2 ^ k := by
  induction fuel generalizing n with
  | zero =>
    have : n = 0 := by simpa using h
    subst this
    simp only [ones]
    constructor
    · intro h; omega
    · rintro ⟨k, hk⟩
      have := Nat.two_pow_pos k
      omega
  | succ fuel ih =>
    rw [Nat.pow_succ] at h
    have i1 := ih (n / 2) (by omega)
    have i0 := ones_zero fuel (n / 2) (by omega)
    unfold ones
    constructor
    · intro h1
      by_cases hn : n % 2 = 1
      · have : n / 2 = 0 := i0.1 (by omega)
        exact ⟨0, by rw [Nat.pow_zero]; omega⟩
      · obtain ⟨k, hk⟩ := i1.1 (by omega)
        exact ⟨k + 1, by rw [Nat.pow_succ]; omega⟩
    · rintro ⟨k, rfl⟩
      cases k with
      | zero =>
        have := i0.2 (by simp)
        simp only [Nat.pow_zero] at this ⊢
        omega
      | succ k =>
        have e : 2 ^ (k + 1) = 2 * 2 ^ k := by rw [Nat.pow_succ]; omega
        have : ones fuel (2 ^ (k + 1) / 2) = 1 := i1.2 ⟨k, by omega⟩
        omega

theorem alignment_toNat (size align : BitVec 64) (k : Nat) (hk : align.toNat = 2 ^ k)
    (ho : size.toNat + (2 ^ k - 1) < 2 ^ 64) :
    (alignment size align).toNat = (size.toNat + (2 ^ k - 1)) / 2 ^ k * 2 ^ k := by
  have hpos : 0 < 2 ^ k := Nat.two_pow_pos k
  have hlt : 2 ^ k < 2 ^ 64 := hk ▸ align.isLt
  have e1 : align - 1 = BitVec.ofNat 64 (2 ^ k - 1) := by
    apply BitVec.eq_of_toNat_eq
    have e : (1 : BitVec 64).toNat = 1 := rfl
    simp only [BitVec.toNat_sub, BitVec.toNat_ofNat, hk, e]
    omega
  have e2 : alignment size align = ((size + (align - 1)) >>> k) <<< k := by
    unfold alignment
    rw [e1]
    apply BitVec.eq_of_getLsbD_eq
    intro i hi
    rw [BitVec.getLsbD_and, BitVec.getLsbD_not, BitVec.getLsbD_shiftLeft, BitVec.getLsbD_ushiftRight]
    have e : (BitVec.ofNat 64 (2 ^ k - 1)).getLsbD i = decide (i < k) := by
      rw [BitVec.getLsbD_ofNat, Nat.testBit_two_pow_sub_one]
      simp [hi]
    rw [e]
    by_cases h : i < k
    · simp [h]
    · have : k + (i - k) = i := by omega
      simp [h, hi, this]
  have e3 : (size + (align - 1)).toNat = size.toNat + (2 ^ k - 1) := by
    rw [e1]
    simp only [BitVec.toNat_add, BitVec.toNat_ofNat]
    rw [Nat.mod_eq_of_lt (a := 2 ^ k - 1) (by omega), Nat.mod_eq_of_lt ho]
  rw [e2, BitVec.toNat_shiftLeft, BitVec.toNat_ushiftRight, e3, Nat.shiftRight_eq_div_pow,
    Nat.shiftLeft_eq, Nat.mod_eq_of_lt]
  exact Nat.lt_of_le_of_lt (Nat.div_mul_le_self _ _) ho

end Diminuto.Memory
