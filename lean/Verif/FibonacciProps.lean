import Verif.Fibonacci

/-!
# Property C31: the Fibonacci generator
-/

namespace Diminuto.Fibonacci

/-! ## Specification -/

/-- The unbounded sequence `x[n+2] = x[n+1] + x[n]`. -/
def seq (x0 x1 : Nat) : Nat → Nat
  | 0 => x0
  | 1 => x1
  | n + 2 => seq x0 x1 (n + 1) + seq x0 x1 n

/-- The generator's documented contract: it returns the sequence up to the last
value that does not exceed the maximum, and then that value forever. -/
def Documented (x0 x1 xm : BitVec 32) : Prop :=
  ∀ K, seq x0.toNat x1.toNat K ≤ xm.toNat → xm.toNat < seq x0.toNat x1.toNat (K + 1) →
    ∀ n, (output (init x0 x1 xm) n).toNat = seq x0.toNat x1.toNat (min n K)

theorem seq_mono {x0 x1 : Nat} (h : x0 ≤ x1) (n : Nat) : seq x0 x1 n ≤ seq x0 x1 (n + 1) := by
  match n with
  | 0 => simpa [seq] using h
  | n + 1 => simp only [seq]; omega

theorem seq_le {x0 x1 : Nat} (h : x0 ≤ x1) {m n : Nat} (hmn : m ≤ n) :
    seq x0 x1 m ≤ seq x0 x1 n := by
  induction n with
  | zero => have : m = 0 := by omega
            subst this; exact Nat.le_refl _
  | succ n ih =>
    by_cases hm : m = n + 1
    · subst hm; exact Nat.le_refl _
    · exact Nat.le_trans (ih (by omega)) (seq_mono h n)

theorem seq_pos {x0 x1 : Nat} (h1 : 1 ≤ x1) (h : x0 ≤ x1) (n : Nat) : 1 ≤ seq x0 x1 (n + 1) := by
  have := seq_le h (show 1 ≤ n + 1 by omega)
  simp only [seq] at this
  omega

theorem seq_grows {x0 x1 : Nat} (h1 : 1 ≤ x1) (h : x0 ≤ x1) (n : Nat) :
    n ≤ seq x0 x1 (n + 2) := by
  induction n with
  | zero => omega
  | succ n ih =>
    have := seq_pos h1 h n
    simp only [seq] at *
    omega

theorem exists_index {x0 x1 : Nat} (h1 : 1 ≤ x1) (h : x0 ≤ x1) (xm : Nat) :
    ∃ K, 1 ≤ K ∧ (∀ j, 2 ≤ j → j ≤ K → seq x0 x1 j < xm) ∧ xm ≤ seq x0 x1 (K + 1) := by
  have hex : ∃ k, xm ≤ seq x0 x1 (k + 2) := ⟨xm, seq_grows h1 h xm⟩
  have : ∀ k, xm ≤ seq x0 x1 (k + 2) →
      ∃ K, 1 ≤ K ∧ (∀ j, 2 ≤ j → j ≤ K → seq x0 x1 j < xm) ∧ xm ≤ seq x0 x1 (K + 1) := by
    intro k
    induction k with
    | zero => intro hk; exact ⟨1, by omega, fun j _ _ => by omega, hk⟩
    | succ k ih =>
      intro hk
      by_cases hk' : xm ≤ seq x0 x1 (k + 2)
      · exact ih hk'
      · refine ⟨k + 2, by omega, ?_, hk⟩
        intro j _ hj
        have := seq_le h hj
        omega
  obtain ⟨k, hk⟩ := hex
  exact this k hk

theorem after_state (x0 x1 xm : BitVec 32) (h01 : x0.toNat ≤ x1.toNat)
    (h1m : x1.toNat ≤ xm.toNat) (K : Nat) (hK1 : 1 ≤ K)
    (hlt : ∀ j, 2 ≤ j → j ≤ K → seq x0.toNat x1.toNat j < xm.toNat)
    (hge : xm.toNat ≤ seq x0.toNat x1.toNat (K + 1)) (n : Nat) :
    (after (init x0 x1 xm) n).x0.toNat = seq x0.toNat x1.toNat (min n K) ∧
    (after (init x0 x1 xm) n).x1.toNat = seq x0.toNat x1.toNat (min (n + 1) K) ∧
    (after (init x0 x1 xm) n).xm = xm := by
  have hbound : ∀ j, j ≤ K → seq x0.toNat x1.toNat j ≤ xm.toNat := by
    intro j hj
    match j with
    | 0 => simp only [seq]; omega
    | 1 => simp only [seq]; omega
    | j + 2 => exact Nat.le_of_lt (hlt _ (by omega) hj)
  induction n with
  | zero =>
    have : min (0 + 1) K = 1 := by omega
    rw [this]
    simp [after, init, seq]
  | succ n ih =>
    obtain ⟨i0, i1, im⟩ := ih
    generalize hs : after (init x0 x1 xm) n = s at *
    have hm : seq x0.toNat x1.toNat (min (n + 1) K) ≤ xm.toNat := hbound _ (by omega)
    have hsub : (s.xm - s.x1).toNat = xm.toNat - s.x1.toNat := by
      rw [im, BitVec.toNat_sub_of_le (by rw [BitVec.le_def, i1]; exact hm)]
    simp only [after, hs, next]
    refine ⟨i1, ?_, im⟩
    by_cases hc : n + 2 ≤ K
    · have e0 : min n K = n := by omega
      have e1 : min (n + 1) K = n + 1 := by omega
      have e2 : min (n + 1 + 1) K = n + 2 := by omega
      rw [e0] at i0
      rw [e1] at i1
      have hsum := hlt (n + 2) (by omega) hc
      have hxm := xm.isLt
      rw [if_pos]
      · rw [e2, BitVec.toNat_add, i0, i1]
        simp only [seq] at *
        rw [Nat.mod_eq_of_lt (by omega)]
      · rw [gt_iff_lt, BitVec.lt_def, hsub, i0, i1]
        simp only [seq] at hsum
        omega
    · have e2 : min (n + 1 + 1) K = K := by omega
      have e1 : min (n + 1) K = K := by omega
      rw [if_neg]
      · rw [e2, i1, e1]
      · rw [gt_iff_lt, BitVec.lt_def, hsub, i0, i1, e1]
        obtain ⟨k, rfl⟩ : ∃ k, K = k + 1 := ⟨K - 1, by omega⟩
        have hmono : seq x0.toNat x1.toNat k ≤ seq x0.toNat x1.toNat (min n (k + 1)) :=
          seq_le h01 (by omega)
        simp only [seq] at hge
        omega

/-- C31, proved part: with `x0 <= x1 <= xm` and `x1 >= 1` the generator returns
the sequence up to the last value *strictly below* the maximum (or the second
starting value) and then that value forever.  What is missing from the documented
contract is the case where the maximum is itself a member of the sequence. -/
theorem fibonacci_strictly_below_partial (x0 x1 xm : BitVec 32)
    (h01 : x0.toNat ≤ x1.toNat) (h1 : 1 ≤ x1.toNat) (h1m : x1.toNat ≤ xm.toNat) :
    ∃ K, 1 ≤ K ∧ (∀ j, 2 ≤ j → j ≤ K → seq x0.toNat x1.toNat j < xm.toNat) ∧
      xm.toNat ≤ seq x0.toNat x1.toNat (K + 1) ∧
      ∀ n, (output (init x0 x1 xm) n).toNat = seq x0.toNat x1.toNat (min n K) := by
  obtain ⟨K, hK, hlt, hge⟩ := exists_index h1 h01 xm.toNat
  exact ⟨K, hK, hlt, hge, fun n => (after_state x0 x1 xm h01 h1m K hK hlt hge n).1⟩

/-- C31: the documented contract holds whenever the maximum is not a member of
the sequence (beyond the two starting values). -/
theorem fibonacci_documented_partial (x0 x1 xm : BitVec 32)
    (h01 : x0.toNat ≤ x1.toNat) (h1 : 1 ≤ x1.toNat) (h1m : x1.toNat ≤ xm.toNat)
    (hne : ∀ j, 2 ≤ j → seq x0.toNat x1.toNat j ≠ xm.toNat) : Documented x0 x1 xm := by
  intro K hle hlt n
  obtain ⟨K', hK', h2, h3, h4⟩ := fibonacci_strictly_below_partial x0 x1 xm h01 h1 h1m
  rw [h4 n]
  have h3' : xm.toNat < seq x0.toNat x1.toNat (K' + 1) := by
    have := hne (K' + 1) (by omega)
    omega
  have a1 : K ≤ K' := by
    apply Classical.byContradiction
    intro hn
    have := seq_le h01 (show K' + 1 ≤ K by omega)
    omega
  have a2 : seq x0.toNat x1.toNat K' ≤ xm.toNat := by
    by_cases hk : 2 ≤ K'
    · exact Nat.le_of_lt (h2 K' hk (Nat.le_refl _))
    · have : K' = 1 := by omega
      subst this
      simpa [seq] using h1m
  have a3 : K' ≤ K := by
    apply Classical.byContradiction
    intro hn
    have := seq_le h01 (show K + 1 ≤ K' by omega)
    omega
  have : K = K' := by omega
  rw [this]

/-- C31 (bounded and monotone): under the same conditions returned values never
decrease and never exceed the maximum, for any number of calls. -/
theorem fibonacci_bounded_monotone (x0 x1 xm : BitVec 32)
    (h01 : x0.toNat ≤ x1.toNat) (h1 : 1 ≤ x1.toNat) (h1m : x1.toNat ≤ xm.toNat) (n : Nat) :
    (output (init x0 x1 xm) n).toNat ≤ xm.toNat ∧
    (output (init x0 x1 xm) n).toNat ≤ (output (init x0 x1 xm) (n + 1)).toNat := by
  obtain ⟨K, hK, h2, _, h4⟩ := fibonacci_strictly_below_partial x0 x1 xm h01 h1 h1m
  rw [h4, h4]
  constructor
  · have hk : seq x0.toNat x1.toNat K ≤ xm.toNat := by
      by_cases hk : 2 ≤ K
      · exact Nat.le_of_lt (h2 K hk (Nat.le_refl _))
      · have : K = 1 := by omega
        subst this
        simpa [seq] using h1m
    exact Nat.le_trans (seq_le h01 (by omega)) hk
  · exact seq_le h01 (by omega)

/-- C31 is false of the code when the maximum is a Fibonacci number: with maximum
8 the classic generator sticks at 5 although 8 does not exceed 8. -/
theorem fibonacci_documented_counterexample : ¬ Documented 1 1 8 := by
  intro h
  have := h 5 (by decide) (by decide) 5
  revert this
  decide

/-- C31, setting the limit: the limit before is returned, the new one is in effect, and the
values to be returned next stay the same. -/
theorem fibonacci_set_limit (s : State) (xm : BitVec 32) :
    (setLimit s xm).2 = s.xm ∧ (setLimit s xm).1.xm = xm ∧
      output (setLimit s xm).1 0 = output s 0 ∧ output (setLimit s xm).1 1 = output s 1 :=
  ⟨rfl, rfl, rfl, rfl⟩

/-- Lowering the limit below the current value makes the unsigned subtraction
wrap, after which returned values exceed the limit. -/
theorem fibonacci_lowered_limit_counterexample :
    let s := (setLimit (after initClassic 5) 5).1
    s.xm = 5 ∧ output s 3 = 34 := by decide

/-- C31 for the three predefined generators: the sequence is returned unchanged
while it fits in 32 bits, and then the largest such value is repeated. -/
theorem fibonacci_predefined (n : Nat) :
    (output initClassic n).toNat = seq 1 1 (min n 46) ∧
    (output initModern n).toNat = seq 0 1 (min n 47) ∧
    (output initAdvanced n).toNat = seq 1 2 (min n 45) ∧
    seq 1 1 46 = 2971215073 ∧ seq 0 1 47 = 2971215073 ∧ seq 1 2 45 = 2971215073 := by
  have key : ∀ (x0 x1 : BitVec 32) (K : Nat), x0.toNat ≤ x1.toNat → x1.toNat ≤ 2 → 1 ≤ K →
      seq x0.toNat x1.toNat K = 2971215073 → 4294967295 ≤ seq x0.toNat x1.toNat (K + 1) →
      (output (init x0 x1 maximum) n).toNat = seq x0.toNat x1.toNat (min n K) := by
    intro x0 x1 K h01 h2 hK hv hn
    refine (after_state x0 x1 maximum h01 ?_ K hK ?_ ?_ n).1
    · have : maximum.toNat = 4294967295 := rfl
      omega
    · intro j _ hj
      have := seq_le h01 hj
      have : maximum.toNat = 4294967295 := rfl
      omega
    · exact hn
  have v1 : seq 1 1 46 = 2971215073 ∧ seq 1 1 47 = 4807526976 := by simp [seq]
  have v0 : seq 0 1 47 = 2971215073 ∧ seq 0 1 48 = 4807526976 := by simp [seq]
  have v2 : seq 1 2 45 = 2971215073 ∧ seq 1 2 46 = 4807526976 := by simp [seq]
  refine ⟨?_, ?_, ?_, v1.1, v0.1, v2.1⟩
  · exact key 1 1 46 (by decide) (by decide) (by omega) v1.1 (by
      show 4294967295 ≤ seq 1 1 47
      rw [v1.2]; decide)
  · exact key 0 1 47 (by decide) (by decide) (by omega) v0.1 (by
      show 4294967295 ≤ seq 0 1 48
      rw [v0.2]; decide)
  · exact key 1 2 45 (by decide) (by decide) (by omega) v2.1 (by
      show 4294967295 ≤ seq 1 2 46
      rw [v2.2]; decide)

-- Non-vacuity: a limit that is not a Fibonacci number meets the hypotheses.
example : (List.range 8).map (fun n => (output (init 1 1 10) n).toNat) = [1, 1, 2, 3, 5, 8, 8, 8] := by
  decide
example : (1 : BitVec 32).toNat ≤ (1 : BitVec 32).toNat ∧ 1 ≤ (1 : BitVec 32).toNat ∧
    (1 : BitVec 32).toNat ≤ (10 : BitVec 32).toNat := by decide
example : ∀ j, 2 ≤ j → seq 1 1 j ≠ 10 := by
  intro j _ he
  by_cases h : j ≤ 5
  · have := seq_le (x0 := 1) (x1 := 1) (Nat.le_refl _) h
    have h5 : seq 1 1 5 = 8 := by decide
    omega
  · have := seq_le (x0 := 1) (x1 := 1) (Nat.le_refl _) (show 6 ≤ j by omega)
    have h6 : seq 1 1 6 = 13 := by decide
    omega

end Diminuto.Fibonacci
