import Verif.WipeSpec

/-!
# More lemmas for the tool that wipes a storage device: the pattern
-/

namespace Diminuto.Wipe

/-- The sum of the first powers of a number. -/
def powers (q : Nat) : Nat → Nat
  | 0 => 0
  | m + 1 => 1 + q * powers q m

theorem powers_double (q m : Nat) : powers q (2 * m) = (1 + q) * powers (q * q) m := by
  induction m with
  | zero => rfl
  | succ m ih =>
    rw [show 2 * (m + 1) = 2 * m + 1 + 1 by omega]
    simp only [powers]
    rw [ih]
    simp only [Nat.mul_add, Nat.add_mul, Nat.mul_one, Nat.one_mul, Nat.mul_assoc, Nat.mul_left_comm, Nat.mul_comm]
    omega

theorem powers_parity (q m : Nat) (hq : q % 2 = 1) : powers q m % 2 = m % 2 := by
  induction m with
  | zero => rfl
  | succ m ih =>
    simp only [powers]
    rw [Nat.add_mod, Nat.mul_mod, ih, hq]
    omega

theorem coprime_dvd {k m n : Nat} (h : Nat.Coprime k m) : k ∣ m * n ↔ k ∣ n := ⟨fun hd => Nat.Coprime.dvd_of_dvd_mul_left h hd, fun hd => Nat.dvd_trans hd (Nat.dvd_mul_left _ _)⟩

/-- For a number that is one more than a multiple of four, as many twos divide the sum as divide the number of the powers. -/
theorem powers_four (j : Nat) : ∀ q m, q % 4 = 1 → (2 ^ j ∣ powers q m ↔ 2 ^ j ∣ m) := by
  induction j with
  | zero => intro q m _; simp
  | succ j ih =>
    intro q m hq
    by_cases hm : m % 2 = 1
    · constructor
      · intro h
        have h2 : 2 ∣ powers q m := Nat.dvd_trans (by rw [Nat.pow_succ]; exact Nat.dvd_mul_left _ _) h
        have := powers_parity q m (by omega)
        omega
      · intro h
        have h2 : 2 ∣ m := Nat.dvd_trans (by rw [Nat.pow_succ]; exact Nat.dvd_mul_left _ _) h
        omega
    · obtain ⟨n, rfl⟩ : ∃ n, m = 2 * n := ⟨m / 2, by omega⟩
      rw [powers_double]
      have hqq : q * q % 4 = 1 := by rw [Nat.mul_mod, hq]
      obtain ⟨r, hr⟩ : ∃ r, 1 + q = 2 * r ∧ r % 2 = 1 := ⟨(1 + q) / 2, by omega, by omega⟩
      rw [hr.1, Nat.pow_succ, Nat.mul_comm (2 ^ j) 2, Nat.mul_assoc]
      rw [Nat.mul_dvd_mul_iff_left (by decide), Nat.mul_dvd_mul_iff_left (by decide)]
      have hco : Nat.Coprime (2 ^ j) r := Nat.Coprime.pow_left j (by
        rw [Nat.coprime_iff_gcd_eq_one, Nat.gcd_comm]
        have := Nat.gcd_rec 2 r
        rw [Nat.gcd_comm, this, hr.2]; rfl)
      rw [coprime_dvd hco]
      exact ih _ _ hqq

/-- The period of the sum modulo 2^64. -/
theorem powers_period (m : Nat) : 2 ^ 64 ∣ powers (4294967310 + 1) m ↔ 2 ^ 61 ∣ m := by
  by_cases hm : m % 2 = 1
  · constructor
    · intro h
      have := powers_parity (4294967310 + 1) m (by decide)
      omega
    · intro h; omega
  · obtain ⟨n, rfl⟩ : ∃ n, m = 2 * n := ⟨m / 2, by omega⟩
    rw [powers_double, show 1 + (4294967310 + 1) = 2 ^ 4 * 268435457 by decide, show (2 : Nat) ^ 64 = 2 ^ 4 * 2 ^ 60 by decide, show (2 : Nat) ^ 61 = 2 * 2 ^ 60 by decide, Nat.mul_assoc]
    rw [Nat.mul_dvd_mul_iff_left (by decide), Nat.mul_dvd_mul_iff_left (by decide)]
    have hco : Nat.Coprime (2 ^ 60) 268435457 := Nat.Coprime.pow_left 60 (by decide)
    rw [coprime_dvd hco]
    exact powers_four 60 _ _ (by decide)

theorem step (x p a b : Nat) : (x + (x * a + b) * p) * (a + 1) + b = x + (x * a + b) * (1 + (a + 1) * p) := by
  simp only [Nat.mul_add, Nat.add_mul, Nat.mul_one, Nat.one_mul]
  have e1 : x * a * p * a = x * a * (a * p) := by rw [Nat.mul_assoc (x * a), Nat.mul_comm p]
  have e2 : b * p * a = b * (a * p) := by rw [Nat.mul_assoc, Nat.mul_comm p]
  omega

theorem mod_step (y a b c : Nat) : (y % c * a + b) % c = (y * a + b) % c := by
  rw [Nat.add_mod, Nat.mul_mod, Nat.mod_mod, ← Nat.mul_mod, ← Nat.add_mod]

/-- The values of such a polynomial from any of them on. -/
theorem closed (f : Nat → Nat) (a b c i m : Nat) (h0 : f i < c) (hs : ∀ j, f (j + 1) = (f j * (a + 1) + b) % c) :
    f (i + m) = (f i + (f i * a + b) * powers (a + 1) m) % c := by
  induction m with
  | zero =>
    simp only [powers, Nat.mul_zero, Nat.add_zero]
    exact (Nat.mod_eq_of_lt h0).symm
  | succ m ih =>
    rw [← Nat.add_assoc, hs, ih, mod_step, step]
    rfl

theorem word_lt (seed : BitVec 64) (i : Nat) : word seed i < 2 ^ 64 := by
  cases i with
  | zero => exact seed.isLt
  | succ i => unfold word; exact Nat.mod_lt _ (by decide)

theorem word_succ (seed : BitVec 64) (i : Nat) : word seed (i + 1) = (word seed i * (4294967310 + 1) + 17) % 2 ^ 64 := by
  rw [word]

/-- The words from any word on. -/
theorem word_closed (seed : BitVec 64) (i m : Nat) : word seed (i + m) = (word seed i + (word seed i * 4294967310 + 17) * powers (4294967310 + 1) m) % 2 ^ 64 :=
  closed (word seed) 4294967310 17 (2 ^ 64) i m (word_lt seed i) (word_succ seed)

/-- Two words are the same exactly if their distance is a multiple of 2^61. -/
theorem word_same (seed : BitVec 64) (i m : Nat) : word seed (i + m) = word seed i ↔ 2 ^ 61 ∣ m := by
  rw [word_closed, ← powers_period]
  have hlt := word_lt seed i
  have hco : Nat.Coprime (2 ^ 64) (word seed i * 4294967310 + 17) := Nat.Coprime.pow_left 64 (by
    have hodd : (word seed i * 4294967310 + 17) % 2 = 1 := by omega
    generalize word seed i * 4294967310 + 17 = u at hodd
    rw [Nat.coprime_iff_gcd_eq_one, Nat.gcd_rec, hodd]
    rfl)
  rw [← coprime_dvd hco]
  generalize (word seed i * 4294967310 + 17) * powers (4294967310 + 1) m = z
  generalize word seed i = x at *
  omega

end Diminuto.Wipe
