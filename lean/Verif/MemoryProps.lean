import Verif.MemoryLemmas

/-!
# Property C53: arithmetic of the Memory feature
-/

namespace Diminuto.Memory

/-! ## Specification -/

/-- `n` is a power of two. -/
def IsPowerOfTwo (n : Nat) : Prop := ∃ k, n = 2 ^ k

/-- `r` is the least `n` with `P n`. -/
def Least (P : Nat → Prop) (r : Nat) : Prop := P r ∧ ∀ m, P m → r ≤ m

/-! ## The properties -/

/-- C53 for `diminuto_memory_power`: it ends, and returns the least power of two not less than its
argument, or zero if there is none among the 64-bit numbers. -/
theorem memory_power_least (a : BitVec 64) :
    ∃ r, power a = some r ∧
      (a.toNat ≤ 2 ^ 63 → Least (fun n => IsPowerOfTwo n ∧ a.toNat ≤ n) r.toNat) ∧
      (2 ^ 63 < a.toNat → r = 0) := by
  obtain ⟨r, hr, h⟩ := powerLoop_spec a 65 0 1 (by omega) (by omega) rfl (Or.inl rfl)
  refine ⟨r, hr, ?_, ?_⟩
  · intro ha
    rcases h with ⟨_, h⟩ | ⟨j, hj, h1, h2⟩
    · omega
    · rw [hj]
      refine ⟨⟨⟨j, rfl⟩, h1⟩, ?_⟩
      rintro m ⟨⟨i, rfl⟩, hi⟩
      rcases h2 with rfl | h2
      · exact Nat.two_pow_pos i
      · have hlt : 2 ^ (j - 1) < 2 ^ i := by omega
        have : j - 1 < i := (Nat.pow_lt_pow_iff_right (by omega)).1 hlt
        exact Nat.pow_le_pow_right (by omega) (by omega)
  · intro ha
    rcases h with ⟨h, _⟩ | ⟨j, hj, h1, _⟩
    · exact h
    · exfalso
      have hlt : 2 ^ j < 2 ^ 64 := hj ▸ r.isLt
      have h2 : j < 64 := (Nat.pow_lt_pow_iff_right (by omega)).1 hlt
      have h3 : 2 ^ j ≤ 2 ^ 63 := Nat.pow_le_pow_right (by omega) (by omega)
      omega

/-- C53 for `diminuto_memory_is_power`: it ends, and recognises exactly the powers of two. -/
theorem memory_is_power_iff (v : BitVec 64) :
    ∃ b, isPower v = some b ∧ (b = true ↔ IsPowerOfTwo v.toNat) := by
  refine ⟨_, by rw [isPower, bitsLoop_spec 64 v 0 v.isLt]; rfl, ?_⟩
  rw [beq_iff_eq, Nat.zero_add, ones_one 64 _ v.isLt]
  rfl

/-- C53 for `diminuto_memory_alignment`: for a power of two and without overflow it is the least
multiple that is not less than the size. -/
theorem memory_alignment_least (size align : BitVec 64) (hp : IsPowerOfTwo align.toNat)
    (ho : size.toNat + (align.toNat - 1) < 2 ^ 64) :
    Least (fun n => align.toNat ∣ n ∧ size.toNat ≤ n) (alignment size align).toNat := by
  obtain ⟨k, hk⟩ := hp
  have hpos : 0 < 2 ^ k := Nat.two_pow_pos k
  rw [alignment_toNat size align k hk (by rw [hk] at ho; exact ho), hk]
  refine ⟨⟨Nat.dvd_mul_left _ _, ?_⟩, ?_⟩
  · have := Nat.div_add_mod (size.toNat + (2 ^ k - 1)) (2 ^ k)
    have := Nat.mod_lt (size.toNat + (2 ^ k - 1)) hpos
    have := Nat.mul_comm (2 ^ k) ((size.toNat + (2 ^ k - 1)) / 2 ^ k)
    omega
  · rintro m ⟨⟨q, rfl⟩, hm⟩
    rw [Nat.mul_comm (2 ^ k) q]
    apply Nat.mul_le_mul_right
    rw [← Nat.lt_add_one_iff, Nat.div_lt_iff_lt_mul hpos, Nat.add_mul, Nat.mul_comm q]
    omega

example : power 17 = some 32 ∧ power 0 = some 1 ∧ power (BitVec.ofNat 64 (2 ^ 63 + 1)) = some 0 := by
  decide +kernel

example : isPower 64 = some true ∧ isPower 96 = some false := by decide +kernel

example : IsPowerOfTwo (16 : BitVec 64).toNat ∧
    (17 : BitVec 64).toNat + ((16 : BitVec 64).toNat - 1) < 2 ^ 64 ∧ alignment 17 16 = 32 :=
  ⟨⟨4, rfl⟩, by decide, by decide⟩

/-- C53, overflow: without its precondition the alignment of a size can be zero, less
than the size. -/
theorem memory_alignment_overflow_counterexample :
    alignment (BitVec.ofNat 64 (2 ^ 64 - 1)) 16 = 0 := by decide +kernel

/-! ## C62: what is passed to `posix_memalign` -/

/-- What POSIX requires of the alignment given to `posix_memalign`, and the code (comment at
`Diminuto/src/diminuto_memory.c:160-163`) of the size. -/
def PosixValid (align size : Nat) : Prop := IsPowerOfTwo align ∧ 8 ∣ align ∧ align ∣ size

/-- C62, the part that holds: for an alignment that is a power of two, and without overflow, the
arguments are valid, not less than was asked for, and no larger than necessary.  Missing: other
alignments, for which the claim is false. -/
theorem memory_aligned_valid_partial (align size : BitVec 64) (hp : IsPowerOfTwo align.toNat)
    (ho : size.toNat + (max 8 align.toNat - 1) < 2 ^ 64) :
    PosixValid (aligned align size).1.toNat (aligned align size).2.toNat ∧
    (aligned align size).1.toNat = max 8 align.toNat ∧
    Least (fun n => max 8 align.toNat ∣ n ∧ size.toNat ≤ n) (aligned align size).2.toNat := by
  obtain ⟨k, hk⟩ := hp
  have h8 : (aligned align size).1.toNat = max 8 align.toNat ∧
      IsPowerOfTwo (aligned align size).1.toNat ∧ 8 ∣ (aligned align size).1.toNat := by
    have hlt : 2 ^ k < 2 ^ 64 := hk ▸ align.isLt
    have h2 : k < 64 := (Nat.pow_lt_pow_iff_right (by omega)).1 hlt
    have hle : 2 ^ k ≤ 2 ^ 63 := Nat.pow_le_pow_right (by omega) (by omega)
    show (alignment align 8).toNat = _ ∧ IsPowerOfTwo (alignment align 8).toNat ∧
      8 ∣ (alignment align 8).toNat
    rw [alignment_toNat align 8 3 rfl (by rw [hk]; omega), hk]
    by_cases h3 : 3 ≤ k
    · obtain ⟨j, rfl⟩ : ∃ j, k = j + 3 := ⟨k - 3, by omega⟩
      have e : 2 ^ (j + 3) = 8 * 2 ^ j := by rw [Nat.pow_add]; omega
      have hj := Nat.two_pow_pos j
      have e2 : (2 ^ (j + 3) + (2 ^ 3 - 1)) / 2 ^ 3 * 2 ^ 3 = 2 ^ (j + 3) := by omega
      rw [e2]
      refine ⟨by omega, ⟨_, rfl⟩, ?_⟩
      rw [e]
      exact Nat.dvd_mul_right _ _
    · have hb : 1 ≤ 2 ^ k ∧ 2 ^ k ≤ 4 :=
        ⟨Nat.two_pow_pos k, Nat.pow_le_pow_right (n := 2) (by omega) (by omega : k ≤ 2)⟩
      have e2 : (2 ^ k + (2 ^ 3 - 1)) / 2 ^ 3 * 2 ^ 3 = 8 := by omega
      rw [e2]
      exact ⟨by omega, ⟨3, rfl⟩, by omega⟩
  obtain ⟨e1, e2, e3⟩ := h8
  have hl := memory_alignment_least size (aligned align size).1 e2 (by rw [e1]; exact ho)
  refine ⟨⟨e2, e3, ?_⟩, e1, ?_⟩
  · exact hl.1.1
  · rw [← e1]; exact hl

example : aligned 64 100 = (64, 128) ∧ aligned 1 5 = (8, 8) ∧ IsPowerOfTwo (64 : BitVec 64).toNat :=
  ⟨by decide, by decide, 6, rfl⟩

/-- C62 is false: an alignment of 17 bytes becomes 24, which is no power of two, so that
`posix_memalign` fails with `EINVAL`, though the comment in the code says that this is
ensured. -/
theorem memory_aligned_valid_counterexample :
    aligned 17 100 = (24, 104) ∧ ¬ PosixValid 24 104 := by
  refine ⟨by decide, ?_⟩
  rintro ⟨⟨k, hk⟩, _⟩
  match k with
  | 0 | 1 | 2 | 3 | 4 => simp at hk
  | k + 5 =>
    have := Nat.two_pow_pos k
    rw [Nat.pow_add] at hk
    omega

end Diminuto.Memory
