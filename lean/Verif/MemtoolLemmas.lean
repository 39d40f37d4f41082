import Verif.MemtoolSpec
import Verif.MapProps
import Verif.NumberProps

/-!
# Lemmas: the tool that manipulates memory
-/

set_option linter.unusedSimpArgs false

namespace Diminuto.Memtool

open Diminuto.Map (World Stored within whole Honest whole_ge)

theorem word_lt (w : Nat) (f : Nat → Bool) : word w f < 2 ^ w := by
  induction w with
  | zero => simp [word]
  | succ n ih =>
    rw [word, Nat.pow_succ]
    split <;> omega

theorem word_testBit (w : Nat) (f : Nat → Bool) (i : Nat) : (word w f).testBit i = (decide (i < w) && f i) := by
  induction w with
  | zero => simp [word]
  | succ n ih =>
    rw [word]
    have hl := word_lt n f
    by_cases hf : f n = true
    · rw [if_pos hf]
      by_cases hi : i = n
      · subst hi
        rw [Nat.add_comm, Nat.testBit_two_pow_add_eq, ih]
        simp [hf]
      · by_cases h : i < n
        · rw [Nat.add_comm, Nat.testBit_two_pow_add_gt h, ih]
          simp [h, Nat.lt_succ_of_lt h]
        · have h1 : n < i := by omega
          rw [Nat.testBit_lt_two_pow]
          · simp; omega
          · exact Nat.lt_of_lt_of_le (show word n f + 2 ^ n < 2 ^ (n + 1) by rw [Nat.pow_succ]; omega) (Nat.pow_le_pow_right (by decide) h1)
    · rw [if_neg hf, Nat.add_zero, ih]
      by_cases hi : i = n
      · subst hi; simp [hf]
      · by_cases h : i < n
        · simp [h, Nat.lt_succ_of_lt h]
        · have : ¬ i < n + 1 := by omega
          simp [h, this]

theorem one_spec (width : Nat) (value : BitVec 64) (hv : value.toNat < width) :
    ∃ d, one width value = some d ∧ ∀ i, d.getLsbD i = (decide (i < width) && i == value.toNat) := by
  by_cases h : width < 32
  · refine ⟨(1#32 <<< value.toNat).setWidth width, ?_, ?_⟩
    · rw [one, if_pos h, if_pos (by omega)]
    · intro i
      rw [BitVec.getLsbD_setWidth, BitVec.getLsbD_shiftLeft]
      by_cases h1 : i < width
      · by_cases h2 : i = value.toNat
        · subst h2; simp [h1]; omega
        · have hb : (i == value.toNat) = false := by simpa using h2
          rw [hb]
          by_cases h3 : i < value.toNat
          · simp [h3]
          · have : i - value.toNat ≠ 0 := by omega
            simp [BitVec.getLsbD_one, this]
      · simp [h1]
  · refine ⟨BitVec.ofNat width 1 <<< value.toNat, ?_, ?_⟩
    · rw [one, if_neg h, if_pos hv]
    · intro i
      rw [BitVec.getLsbD_shiftLeft, BitVec.getLsbD_ofNat]
      by_cases h1 : i < width
      · by_cases h2 : i = value.toNat
        · subst h2; simp [h1]; omega
        · have hb : (i == value.toNat) = false := by simpa using h2
          rw [hb]
          by_cases h3 : i < value.toNat
          · simp [h3]
          · have h4 : i - value.toNat ≠ 0 := by omega
            have : Nat.testBit 1 (i - value.toNat) = false := by
              obtain ⟨j, hj⟩ := Nat.exists_eq_succ_of_ne_zero h4
              rw [hj, Nat.testBit_succ]
              simp
            simp [this]
      · simp [h1]

theorem changed_spec (op : Op) (hop : op ≠ .read) (width : Nat) (mask value : BitVec 64) (v : Nat)
    (hv : op = .bitClear ∨ op = .bitSet → value.toNat < width) :
    ∃ x, changed op width mask value (BitVec.ofNat width v) = some x ∧ x.toNat = word width (bits op mask.toNat value.toNat v.testBit) := by
  have key : ∀ x : BitVec width, (∀ i, i < width → x.getLsbD i = bits op mask.toNat value.toNat v.testBit i) → x.toNat = word width (bits op mask.toNat value.toNat v.testBit) := by
    intro x hx
    apply Nat.eq_of_testBit_eq
    intro i
    rw [word_testBit, BitVec.testBit_toNat]
    by_cases hi : i < width
    · rw [hx i hi]; simp [hi]
    · rw [BitVec.getLsbD_of_ge _ _ (by omega)]; simp [hi]
  have hg : ∀ i, i < width → (BitVec.ofNat width v).getLsbD i = v.testBit i := by
    intro i hi
    rw [BitVec.getLsbD_ofNat]; simp [hi]
  cases op with
  | read => exact absurd rfl hop
  | write =>
    refine ⟨_, rfl, key _ fun i hi => ?_⟩
    simp only [bits, BitVec.getLsbD_and, BitVec.getLsbD_or, BitVec.getLsbD_not, BitVec.getLsbD_setWidth, hg i hi, hi, decide_true, Bool.true_and, BitVec.testBit_toNat]
  | clear =>
    refine ⟨_, rfl, key _ fun i hi => ?_⟩
    simp only [bits, BitVec.getLsbD_and, BitVec.getLsbD_or, BitVec.getLsbD_not, BitVec.getLsbD_setWidth, hg i hi, hi, decide_true, Bool.true_and, BitVec.testBit_toNat]
  | set =>
    refine ⟨_, rfl, key _ fun i hi => ?_⟩
    simp only [bits, BitVec.getLsbD_and, BitVec.getLsbD_or, BitVec.getLsbD_not, BitVec.getLsbD_setWidth, hg i hi, hi, decide_true, Bool.true_and, BitVec.testBit_toNat]
  | bitClear =>
    obtain ⟨d, hd, hb⟩ := one_spec width value (hv (Or.inl rfl))
    refine ⟨_, by rw [changed, hd]; rfl, key _ fun i hi => ?_⟩
    simp only [bits, BitVec.getLsbD_and, BitVec.getLsbD_or, BitVec.getLsbD_not, BitVec.getLsbD_setWidth, hg i hi, hi, decide_true, Bool.true_and, BitVec.testBit_toNat, hb]
    try rfl
  | bitSet =>
    obtain ⟨d, hd, hb⟩ := one_spec width value (hv (Or.inr rfl))
    refine ⟨_, by rw [changed, hd]; rfl, key _ fun i hi => ?_⟩
    simp only [bits, BitVec.getLsbD_and, BitVec.getLsbD_or, BitVec.getLsbD_not, BitVec.getLsbD_setWidth, hg i hi, hi, decide_true, Bool.true_and, BitVec.testBit_toNat, hb]
    try rfl

theorem physical_some {memory : Nat → Option Nat} {v n p : Nat} (hn : 0 < n) (hv : v % n = 0) (h : ∀ i, i < n → memory (v + i) = some (p + i)) : physical memory v n = some p := by
  have h0 := h 0 hn
  simp only [Nat.add_zero] at h0
  simp only [physical, hv, ne_eq, not_true_eq_false, if_false, h0]
  rw [if_pos]
  rw [List.all_eq_true]
  intro i hi
  simpa using h i (by simpa using hi)

section
variable {σ : Type} {w : World σ} {page : BitVec 31} {memory : σ → Nat → Option Nat}

/-- What mapping does to what is mapped, whatever is asked for. -/
theorem map_owns (hw : Honest w page.toNat memory) (hp : 0 < page.toNat) (start length : BitVec 64) (s s' : σ) (r : BitVec 64) (p : Stored) (h : Map.map w page start length s = (r, p, s')) :
    (r = 0#64 → p = ⟨0#64, 0#64⟩ ∧ memory s' = memory s) ∧
    (r ≠ 0#64 → p.start.toNat % page.toNat = 0 ∧ 0 < p.length.toNat ∧ r.toNat % page.toNat = start.toNat % page.toNat ∧
      ((memory s = fun _ => none) → ∀ v, memory s' v ≠ none ↔ within page.toNat p.start.toNat p.length.toNat v)) := by
  have hpg : (page.setWidth 64).toNat = page.toNat := by
    have := page.isLt
    rw [BitVec.toNat_setWidth]; omega
  have hoff : (start % page.setWidth 64).toNat = start.toNat % page.toNat := by rw [BitVec.toNat_umod, hpg]
  have hofflt := Nat.mod_lt start.toNat hp
  rcases ho : w.open_ s with ⟨fd, s1⟩
  have ho' := hw.open_ s
  rw [ho] at ho'
  simp only [Map.map, ho] at h
  split at h
  · simp only [Prod.mk.injEq] at h
    obtain ⟨rfl, rfl, rfl⟩ := h
    exact ⟨fun _ => ⟨rfl, ho'⟩, fun hn => absurd rfl hn⟩
  · rcases hm : w.mmap (length + start % page.setWidth 64) fd (start - start % page.setWidth 64) s1 with ⟨b, s2⟩
    rw [hm] at h
    cases b with
    | none =>
      simp only [Prod.mk.injEq] at h
      obtain ⟨rfl, rfl, rfl⟩ := h
      refine ⟨fun _ => ⟨rfl, ?_⟩, fun hn => absurd rfl hn⟩
      rw [hw.close, hw.failed _ _ _ _ _ hm, ho']
    | some base =>
      simp only [Prod.mk.injEq] at h
      obtain ⟨rfl, rfl, rfl⟩ := h
      obtain ⟨m1, m2, m3, m4, m5, m6, m7⟩ := hw.mapped _ _ _ _ _ _ hm
      have hwh : 1 * page.toNat ≤ whole page.toNat (length + start % page.setWidth 64).toNat :=
        Nat.mul_le_mul_right _ ((Nat.le_div_iff_mul_le hp).mpr (by omega))
      have hr : (base + start % page.setWidth 64).toNat = base.toNat + start.toNat % page.toNat := by
        rw [BitVec.toNat_add, hoff]
        omega
      refine ⟨fun h0 => ?_, fun _ => ⟨m4, m1, ?_, ?_⟩⟩
      · exfalso
        rw [h0] at hr
        simp at hr; omega
      · rw [hr, Nat.add_mod, m4]; simp
      · intro hn v
        rw [hw.close, m7, ho']
        simp only [hn]
        split
        · rename_i hc; exact ⟨fun _ => hc, fun _ h => by cases h⟩
        · rename_i hc; exact ⟨fun h => absurd rfl h, fun h => absurd h hc⟩

/-- Mapping succeeds while nothing is mapped. -/
theorem map_granted {most : Nat} (hw : Honest w page.toNat memory) (hg : Grants w page.toNat most memory) (hp : 0 < page.toNat) (start length : BitVec 64) (s : σ) (hn : memory s = fun _ => none)
    (hl : 0 < length.toNat) (hm : length.toNat ≤ most) (h64 : length.toNat + page.toNat ≤ 2 ^ 64) : (Map.map w page start length s).1 ≠ 0#64 := by
  have hpg : (page.setWidth 64).toNat = page.toNat := by
    have := page.isLt
    rw [BitVec.toNat_setWidth]; omega
  have hoff : (start % page.setWidth 64).toNat = start.toNat % page.toNat := by rw [BitVec.toNat_umod, hpg]
  have hofflt := Nat.mod_lt start.toNat hp
  have hofle := Nat.mod_le start.toNat page.toNat
  have hsize : (length + start % page.setWidth 64).toNat = length.toNat + start.toNat % page.toNat := by
    rw [BitVec.toNat_add, hoff]; omega
  have hadd : (start - start % page.setWidth 64).toNat = start.toNat - start.toNat % page.toNat := by
    rw [BitVec.toNat_sub, hoff]
    have := start.isLt
    omega
  have hal : (start - start % page.setWidth 64).toNat % page.toNat = 0 := by
    rw [hadd]
    have := Nat.div_add_mod start.toNat page.toNat
    have h2 : start.toNat - start.toNat % page.toNat = page.toNat * (start.toNat / page.toNat) := by omega
    rw [h2]; exact Nat.mul_mod_right _ _
  have ho := hg.opens s hn
  have ho' := hw.open_ s
  simp only [Map.map]
  rw [if_neg (show ¬ (w.open_ s).1 < 0 by omega)]
  have hmm := hg.maps (length + start % page.setWidth 64) (w.open_ s).1 (start - start % page.setWidth 64) (w.open_ s).2 (by rw [ho', hn]) (by omega) (by omega) hal
  rcases hb : w.mmap (length + start % page.setWidth 64) (w.open_ s).1 (start - start % page.setWidth 64) (w.open_ s).2 with ⟨b, s2⟩
  rw [hb] at hmm
  cases b with
  | none => exact absurd rfl hmm
  | some base =>
    simp only []
    intro h0
    obtain ⟨m1, m2, m3, m4, m5, m6, m7⟩ := hw.mapped _ _ _ _ _ _ hb
    have hwh : 1 * page.toNat ≤ whole page.toNat (length + start % page.setWidth 64).toNat :=
      Nat.mul_le_mul_right _ ((Nat.le_div_iff_mul_le hp).mpr (by omega))
    have h1 : (base + start % page.setWidth 64).toNat = base.toNat + start.toNat % page.toNat := by
      rw [BitVec.toNat_add, hoff]
      omega
    rw [h0] at h1
    simp at h1
    omega

end

end Diminuto.Memtool
