import Verif.TimeSpec

/-!
# Lemmas: Frequency and Time
-/

namespace Diminuto.Time

theorem chk_of {x : Int} (h : Fits x) : chk x = some x := if_pos h

theorem chk_none {x : Int} (h : ¬ Fits x) : chk x = none := if_neg h

theorem chk_some {x y : Int} (h : chk x = some y) : y = x ∧ Fits x := by
  unfold chk at h
  split at h
  · exact ⟨by simpa using h.symm, by assumption⟩
  · simp at h

theorem tdiv_one' (x : Int) : x.tdiv 1 = x := Int.tdiv_one x

/-- Truncating division of integers, in terms that the arithmetic procedure understands. -/
theorem tdiv_eq (x y : Int) (_ : 0 < y) : x.tdiv y = if 0 ≤ x then x / y else -((-x) / y) := by
  split
  · rename_i h
    exact Int.tdiv_eq_ediv_of_nonneg h
  · rename_i h
    have : x.tdiv y = -((-x).tdiv y) := by rw [Int.neg_tdiv]; simp
    rw [this, Int.tdiv_eq_ediv_of_nonneg (by omega)]

theorem tmod_eq (x y : Int) (_ : 0 < y) : x.tmod y = if 0 ≤ x then x % y else -((-x) % y) := by
  split
  · rename_i h
    exact Int.tmod_eq_emod_of_nonneg h
  · rename_i h
    have : x.tmod y = -((-x).tmod y) := by rw [Int.neg_tmod]; simp
    rw [this, Int.tmod_eq_emod_of_nonneg (by omega)]

theorem units_one : div? frequency 1 = some 1000000000 := by decide

theorem wholeseconds_eq (t : Int) (h : Fits t) :
    ticks2wholeseconds t = some (t.tdiv 1000000000) := by
  unfold ticks2wholeseconds ticks2units
  rw [if_neg (by decide), if_pos (by decide), units_one, Option.bind_some, div?, if_neg (by decide)]
  apply chk_of
  rw [tdiv_eq _ _ (by decide)]
  unfold Fits at *
  split <;> omega

theorem fractional_eq (t : Int) (h : Fits t) :
    ticks2fractionalseconds t frequency = some (t.tmod 1000000000) := by
  have h1 : chk (t.tdiv frequency) = some (t.tdiv frequency) := by
    apply chk_of
    unfold frequency
    rw [tdiv_eq _ _ (by decide)]
    unfold Fits at *
    split <;> omega
  unfold ticks2fractionalseconds mod? div? ticks2units
  rw [if_neg (by decide), h1, Option.map_some, Option.bind_some, if_neg (by decide),
    if_neg (by decide)]
  rfl

theorem fits_abs {t : Int} (h : Fits t) (hm : t ≠ -9223372036854775808) :
    abs64 t = some (if t < 0 then -t else t) := by
  unfold abs64
  split
  · apply chk_of
    unfold Fits at *
    omega
  · rfl

/-- The day of the year, counted from March. -/
theorem doy_range (doe yoe : Int) (h0 : 0 ≤ doe) (h1 : doe < 146097)
  (hyoe : (doe - doe / 1460 + doe / 36524 - doe / 146096) / 365 = yoe) :
  0 ≤ doe - (365 * yoe + yoe / 4 - yoe / 100) ∧ doe - (365 * yoe + yoe / 4 - yoe / 100) ≤ 365 := by
  have hy : 0 ≤ yoe ∧ yoe < 400 := by omega
  by_cases hl : doe = 146096
  · subst hl; subst hyoe; decide
  have hd : doe / 146096 = 0 := by omega
  rw [hd] at hyoe
  have hc : doe / 36524 = 0 ∨ doe / 36524 = 1 ∨ doe / 36524 = 2 ∨ doe / 36524 = 3 := by omega
  have hf : yoe / 100 = 0 ∨ yoe / 100 = 1 ∨ yoe / 100 = 2 ∨ yoe / 100 = 3 := by omega
  have hb : doe / 1460 = yoe / 4 ∨ doe / 1460 = yoe / 4 + 1 := by
    rcases hc with hc | hc | hc | hc <;> rw [hc] at hyoe <;> omega
  rcases hc with hc | hc | hc | hc <;> rcases hf with hf | hf | hf | hf <;> rcases hb with hb | hb <;> rw [hc, hb] at hyoe <;> rw [hf] <;> omega

theorem days_civil (z : Int) : days (civil z).1 (civil z).2.1 (civil z).2.2 = z := by
  unfold days civil
  simp only []
  generalize hdoe : (z + 719468) % 146097 = doe
  generalize hera : (z + 719468) / 146097 = era
  generalize hyoe : (doe - doe / 1460 + doe / 36524 - doe / 146096) / 365 = yoe
  have hy : 0 ≤ yoe ∧ yoe < 400 := by omega
  generalize hdoy : doe - (365 * yoe + yoe / 4 - yoe / 100) = doy
  have hd : 0 ≤ doy ∧ doy ≤ 365 := by
    have := doy_range doe yoe (by omega) (by omega) hyoe
    omega
  generalize hmp : (5 * doy + 2) / 153 = mp
  have hm : 0 ≤ mp ∧ mp ≤ 11 := by omega
  by_cases h : mp < 10
  · rw [if_pos h, if_neg (by omega), if_neg (by omega), if_pos (by omega)]
    have e1 : (yoe + era * 400 + 0) / 400 = era := by omega
    have e2 : (yoe + era * 400 + 0) % 400 = yoe := by omega
    rw [e1, e2]
    omega
  · rw [if_neg h, if_pos (by omega), if_pos (by omega), if_neg (by omega)]
    have e1 : (yoe + era * 400 + 1 - 1) / 400 = era := by omega
    have e2 : (yoe + era * 400 + 1 - 1) % 400 = yoe := by omega
    rw [e1, e2]
    omega

theorem gregorian_inverse : gregorian.Inverse := by
  constructor
  · intro s tm h
    simp only [gregorian, Option.some.injEq] at h
    subst h
    simp only [gregorian, Int.sub_add_cancel, days_civil, Option.some.injEq]
    omega
  · intro tm h
    simp only [gregorian, Option.some.injEq] at h
    subst h
    decide

/-- The state after a history. -/
def After (n c : Nat) (s : Logical) : Prop :=
  s.counter = BitVec.ofNat 64 n ∧ (s.overflow = true ↔ c / 2 ^ 64 < n / 2 ^ 64) ∧ c ≤ n

theorem logical_step {n c : Nat} {s : Logical} (h : After n c s) :
    (logical s).1 = BitVec.ofNat 64 n ∧ ((logical s).2.1 = true ↔ c / 2 ^ 64 < n / 2 ^ 64) ∧
      After (n + 1) c (logical s).2.2 := by
  obtain ⟨h1, h2, h3⟩ := h
  have e : s.counter + 1 = BitVec.ofNat 64 (n + 1) := by
    rw [h1, BitVec.ofNat_add]
    rfl
  have ez : s.counter + 1 = 0 ↔ (n + 1) % 2 ^ 64 = 0 := by
    rw [e, ← BitVec.toNat_inj, BitVec.toNat_ofNat]
    rfl
  unfold logical
  simp only []
  by_cases ho : s.overflow = true
  · rw [if_pos ho]
    have := h2.1 ho
    refine ⟨h1, by simp [this], e, ?_, by omega⟩
    simp only [ho, true_iff]
    omega
  · rw [if_neg ho]
    have hno : ¬ c / 2 ^ 64 < n / 2 ^ 64 := fun h => ho (h2.2 h)
    by_cases hz : s.counter + 1 = 0
    · rw [if_pos hz]
      refine ⟨h1, by simp only [Bool.false_eq_true, false_iff]; exact hno, e, ?_, by omega⟩
      have := ez.1 hz
      simp only [true_iff]
      omega
    · rw [if_neg hz]
      refine ⟨h1, by simp only [Bool.false_eq_true, false_iff]; exact hno, e, ?_, by omega⟩
      have : ¬ (n + 1) % 2 ^ 64 = 0 := fun h => hz (ez.2 h)
      simp only [ho, Bool.false_eq_true, false_iff]
      omega

theorem logical_run_after (l : List Call) : ∀ (n c : Nat) (s : Logical), After n c s →
    ∀ i r, (logicalRun s l).1[i]? = some r →
      r.1 = BitVec.ofNat 64 (n + i) ∧
      ∃ pre post, l = pre ++ .logical :: post ∧ calls pre = i ∧
        (r.2 = true ↔
          (if .reset ∈ pre then n + beforeReset pre else c) / 2 ^ 64 < (n + i) / 2 ^ 64) := by
  induction l with
  | nil => intro n c s _ i r hr; simp [logicalRun] at hr
  | cons x rest ih =>
    intro n c s h i r hr
    cases x with
    | logical =>
      obtain ⟨h1, h2, h3⟩ := logical_step h
      simp only [logicalRun] at hr
      cases i with
      | zero =>
        simp only [List.getElem?_cons_zero, Option.some.injEq] at hr
        subst hr
        exact ⟨h1, [], rest, rfl, rfl, by simpa using h2⟩
      | succ i =>
        simp only [List.getElem?_cons_succ] at hr
        obtain ⟨e1, pre, post, e2, e3, e4⟩ := ih (n + 1) c _ h3 i r hr
        refine ⟨by rw [e1]; congr 1; omega, .logical :: pre, post, by rw [e2]; rfl, by
          simp [calls] at e3 ⊢; omega, ?_⟩
        rw [e4]
        have hmem : (.reset ∈ Call.logical :: pre) ↔ .reset ∈ pre := by simp
        by_cases hp : Call.reset ∈ pre
        · rw [if_pos hp, if_pos (hmem.2 hp), beforeReset, if_pos hp, if_pos rfl]
          have a1 : n + 1 + beforeReset pre = n + (1 + beforeReset pre) := by omega
          have a2 : n + 1 + i = n + (i + 1) := by omega
          rw [a1, a2]
        · rw [if_neg hp, if_neg (fun h => hp (hmem.1 h))]
          have a2 : n + 1 + i = n + (i + 1) := by omega
          rw [a2]
    | reset =>
      obtain ⟨h1, h2, h3⟩ := h
      have h' : After n n (logicalReset s) := ⟨h1, by simp [logicalReset], Nat.le_refl _⟩
      simp only [logicalRun] at hr
      obtain ⟨e1, pre, post, e2, e3, e4⟩ := ih n n _ h' i r hr
      refine ⟨e1, .reset :: pre, post, by rw [e2]; rfl, by simp [calls] at e3 ⊢; omega, ?_⟩
      rw [e4, if_pos (List.mem_cons_self ..), beforeReset]
      by_cases hp : Call.reset ∈ pre
      · rw [if_pos hp, if_pos hp, if_neg (by simp), Nat.zero_add]
      · rw [if_neg hp, if_neg hp, Nat.add_zero]

end Diminuto.Time
