import Verif.KermitLemmas
import Mathlib.Algebra.Polynomial.Basic
import Mathlib.Algebra.Polynomial.Degree.Lemmas
import Mathlib.Algebra.CharP.Two
import Mathlib.Data.ZMod.Basic
import Mathlib.Algebra.Field.ZMod
import Mathlib.Tactic.Ring
import Mathlib.Tactic.LinearCombination

/-! Helper lemmas relating the shift register to division in `GF(2)[X]`. -/

namespace Diminuto.Kermit

open Polynomial

/-- A bit as a constant polynomial over GF(2). -/
noncomputable def bitPoly (b : Bool) : (ZMod 2)[X] := if b then 1 else 0

/-- The register as a polynomial: reflected, so bit 15 is the constant term. -/
noncomputable def regPoly (c : BitVec 16) : (ZMod 2)[X] :=
  ∑ i ∈ Finset.range 16, bitPoly (c.getLsbD (15 - i)) * X ^ i

/-- A bit string as a polynomial, first bit the highest power. -/
noncomputable def msgPoly : List Bool → (ZMod 2)[X]
  | [] => 0
  | b :: bs => bitPoly b * X ^ bs.length + msgPoly bs

/-- The CCITT generator polynomial. -/
noncomputable def generator : (ZMod 2)[X] := X ^ 16 + X ^ 12 + X ^ 5 + 1

theorem add_self' (p : (ZMod 2)[X]) : p + p = 0 := CharTwo.add_self_eq_zero p

theorem bitPoly_xor (a b : Bool) : bitPoly (a ^^ b) = bitPoly a + bitPoly b := by
  cases a <;> cases b <;> simp [bitPoly]
  exact (add_self' 1).symm

theorem bitPoly_and_true (a : Bool) : bitPoly (a && true) = bitPoly a := by simp
theorem bitPoly_and_false (a : Bool) : bitPoly (a && false) = 0 := by simp [bitPoly]

theorem getLsbD_ite (f : Bool) (i : Nat) :
    (if f then (0x8408 : BitVec 16) else 0).getLsbD i = (f && (0x8408 : BitVec 16).getLsbD i) := by
  cases f <;> simp

theorem regPoly_bitStep (c : BitVec 16) (b : Bool) :
    X * regPoly c + bitPoly b * X ^ 16 =
      bitPoly (c.getLsbD 0 ^^ b) * generator + regPoly (bitStep c b) := by
  have h16 : c.getLsbD 16 = false := BitVec.getLsbD_of_ge _ _ (by omega)
  unfold bitStep regPoly generator
  generalize hf : (c.getLsbD 0 ^^ b) = f
  have hfp : bitPoly f = bitPoly (c.getLsbD 0) + bitPoly b := by rw [← hf, bitPoly_xor]
  simp only [Finset.sum_range_succ, Finset.sum_range_zero, BitVec.getLsbD_xor, getLsbD_ite,
    BitVec.getLsbD_ushiftRight, Nat.reduceSub, Nat.reduceAdd, bitPoly_xor, h16]
  have e : ∀ i, i < 16 → (0x8408 : BitVec 16).getLsbD i = decide (i = 3 ∨ i = 10 ∨ i = 15) := by
    decide
  simp only [e 0 (by omega), e 1 (by omega), e 2 (by omega), e 3 (by omega), e 4 (by omega),
    e 5 (by omega), e 6 (by omega), e 7 (by omega), e 8 (by omega), e 9 (by omega),
    e 10 (by omega), e 11 (by omega), e 12 (by omega), e 13 (by omega), e 14 (by omega),
    e 15 (by omega)]
  simp only [Nat.reduceEqDiff, or_self, or_true, or_false, decide_true,
    decide_false, bitPoly_and_true, bitPoly_and_false, OfNat.zero_ne_ofNat, OfNat.one_ne_ofNat]
  have z : bitPoly false = 0 := rfl
  have hb : bitPoly f + bitPoly (c.getLsbD 0) = bitPoly b := by
    rw [hfp, add_comm, ← add_assoc, add_self', zero_add]
  rw [← hb, z]
  have d2 := add_self' (bitPoly f)
  have d3 := add_self' (bitPoly (c.getLsbD 0))
  linear_combination (-(X^12 + X^5 + 1)) * d2 + X^16 * d3

theorem fold_poly (w : List Bool) (c : BitVec 16) :
    ∃ q, X ^ w.length * regPoly c + X ^ 16 * msgPoly w =
      q * generator + regPoly (w.foldl bitStep c) := by
  induction w generalizing c with
  | nil => exact ⟨0, by simp [msgPoly]⟩
  | cons b w ih =>
    obtain ⟨q, hq⟩ := ih (bitStep c b)
    refine ⟨X ^ w.length * bitPoly (c.getLsbD 0 ^^ b) + q, ?_⟩
    have h1 := regPoly_bitStep c b
    simp only [List.length_cons, msgPoly, List.foldl_cons]
    linear_combination X ^ w.length * h1 + hq

theorem regPoly_degree (c : BitVec 16) : (regPoly c).degree < 16 := by
  unfold regPoly
  apply lt_of_le_of_lt (degree_sum_le _ _)
  rw [Finset.sup_lt_iff (by decide)]
  intro i hi
  rw [Finset.mem_range] at hi
  cases c.getLsbD (15 - i)
  · simp [bitPoly]
    decide
  · simp only [bitPoly, if_true, one_mul, degree_X_pow]
    exact_mod_cast hi

end Diminuto.Kermit
