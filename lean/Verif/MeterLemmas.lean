import Verif.MeterSpec

/-!
# Lemmas: the meter
-/

namespace Diminuto.Meter

theorem gt_trans {a p r : Double} (h1 : a.gt p = false) (h2 : r.gt p = true) : a.gt r = false := by
  cases a <;> cases p <;> cases r <;> simp_all [Double.gt]
  exact Rat.not_lt.mpr (Rat.le_trans (Rat.not_lt.mp h1) (Rat.le_of_lt h2))

theorem gt_irrefl (a : Double) : a.gt a = false := by
  cases a <;> simp [Double.gt]

theorem peak_add {l : List Double} {p : Double} (h : IsPeak l p) (r : Double) : IsPeak (l ++ [r]) (if r.gt p then r else p) := by
  obtain ⟨h1, h2⟩ := h
  by_cases hr : r.gt p = true
  · rw [if_pos hr]
    refine ⟨by simp, ?_⟩
    intro a ha
    simp only [List.mem_cons, List.mem_append, List.not_mem_nil, or_false] at ha
    rcases ha with rfl | ha | rfl
    · exact gt_trans (h2 _ (by simp)) hr
    · exact gt_trans (h2 _ (by simp [ha])) hr
    · exact gt_irrefl _
  · rw [if_neg hr]
    refine ⟨?_, ?_⟩
    · simp only [List.mem_cons, List.mem_append] at h1 ⊢
      rcases h1 with h | h <;> simp [h]
    · intro a ha
      simp only [List.mem_cons, List.mem_append, List.not_mem_nil, or_false] at ha
      rcases ha with rfl | ha | rfl
      · exact h2 _ (by simp)
      · exact h2 _ (by simp [ha])
      · simpa using hr

theorem gt_infinite (p : Double) : (if Double.infinite.gt p then Double.infinite else p) = .infinite := by
  cases p <;> simp [Double.gt]

theorem total_append (h : History) (x) : total (h ++ [x]) = total h + x.2.toNat := by simp [total]

theorem largest_append (h : History) (x) : largest (h ++ [x]) = max (largest h) x.2.toNat := by simp [largest]

theorem calls_append (h : History) (x : BitVec 64 × BitVec 64) : calls (h ++ [x]) = calls h + (if x.2 = 0#64 then 0 else 1) := by
  simp only [calls, List.filter_append, List.length_append]
  by_cases hx : x.2 = 0#64 <;> simp [hx]

theorem latest_append (s : BitVec 64) (h : History) (x) : latest s (h ++ [x]) = x.1 := by
  induction h generalizing s with
  | nil => rfl
  | cons y h ih => simp [latest, ih]

theorem sorted_append (s : BitVec 64) (h : History) (x) : Sorted s (h ++ [x]) ↔ Sorted s h ∧ latest s h ≤ x.1 := by
  induction h generalizing s with
  | nil => simp [Sorted, latest]
  | cons y h ih => simp [Sorted, latest, ih, and_assoc]

theorem rates_append (rate : Rating) (seen : Bool) (s : BitVec 64) (h : History) (x : BitVec 64 × BitVec 64) :
    rates rate seen s (h ++ [x]) =
      rates rate seen s h ++ (if x.2 = 0#64 then [] else if seen = true ∨ calls h ≠ 0 then [rateOf rate (latest s h) x] else []) := by
  induction h generalizing s seen with
  | nil =>
    by_cases hx : x.2 = 0#64
    · simp [rates, hx]
    · cases seen <;> simp [rates, hx, latest, calls]
  | cons y h ih =>
    by_cases hy : y.2 = 0#64
    · have hc : calls (y :: h) = calls h := by simp [calls, hy]
      simp only [List.cons_append, rates, hy, if_true, ih, hc, latest]
    · have hc : calls (y :: h) ≠ 0 := by simp [calls, hy]
      simp only [List.cons_append, rates, hy, if_false, ih, latest, hc, ne_eq, not_false_eq_true, or_true, true_or, if_true, List.append_assoc]

theorem calls_le_total (h : History) : calls h ≤ total h := by
  induction h with
  | nil => simp [calls, total]
  | cons x h ih =>
    have h1 : total (x :: h) = x.2.toNat + total h := by simp [total]
    have h2 : calls (x :: h) = (if x.2 = 0#64 then 0 else 1) + calls h := by
      by_cases hx : x.2 = 0#64
      · simp [calls, hx]
      · simp [calls, hx, Nat.add_comm]
    have h3 : x.2 ≠ 0#64 → x.2.toNat ≠ 0 := fun h e => h (BitVec.eq_of_toNat_eq e)
    rw [h1, h2]
    split
    · omega
    · rename_i hx
      have := h3 hx
      omega

theorem calls_zero (h : History) : calls h = 0 ↔ total h = 0 := by
  constructor
  · intro hc
    induction h with
    | nil => rfl
    | cons x h ih =>
      by_cases hx : x.2 = 0#64
      · have : calls h = 0 := by simpa [calls, hx] using hc
        simpa [total, hx] using ih this
      · simp [calls, hx] at hc
  · intro ht
    have := calls_le_total h
    omega

/-- What a meter knows of a history. -/
structure Inv (rate : Rating) (start : BitVec 64) (h : History) (m : Meter) : Prop where
  begun : m.start = start
  last : m.last = latest start h
  events : m.events.toNat = total h
  burst : m.burst.toNat = largest h
  count : m.count.toNat = calls h
  peak : IsPeak (rates rate false start h) m.peak
  sorted : Sorted start h

theorem inv_reset (rate : Rating) (start : BitVec 64) : Inv rate start [] (reset start) :=
  ⟨rfl, rfl, rfl, rfl, rfl, ⟨by simp [reset], by simp [rates, reset, Double.gt]⟩, trivial⟩

theorem largest_le (h : History) : largest h ≤ total h := by
  have : ∀ (l : List Nat) a, l.foldl max a ≤ a + l.sum := by
    intro l
    induction l with
    | nil => simp
    | cons x l ih =>
      intro a
      have := ih (max a x)
      simp only [List.foldl_cons, List.sum_cons]
      omega
  simpa [largest, total] using this (h.map (·.2.toNat)) 0

theorem add_ok {rate : Rating} {start : BitVec 64} {h : History} {m : Meter} (hi : Inv rate start h m) (x : BitVec 64 × BitVec 64)
    (hs : latest start h ≤ x.1) (ht : total h + x.2.toNat < 2 ^ 64) :
    (add rate m x.1 x.2).2 = true ∧ Inv rate start (h ++ [x]) (add rate m x.1 x.2).1 := by
  have hlt : ¬ x.1 < m.last := by
    rw [hi.last, BitVec.not_lt]
    exact hs
  have hsort : Sorted start (h ++ [x]) := (sorted_append _ _ _).mpr ⟨hi.sorted, hs⟩
  have hc := calls_le_total h
  unfold add
  rw [if_neg hlt]
  by_cases h0 : x.2 = 0#64
  · rw [if_pos h0]
    refine ⟨rfl, hi.begun, (latest_append _ _ _).symm, ?_, ?_, ?_, ?_, hsort⟩
    · rw [total_append, h0]; exact hi.events
    · rw [largest_append, h0]; simpa using hi.burst
    · rw [calls_append, if_pos h0]; exact hi.count
    · rw [rates_append, if_pos h0, List.append_nil]; exact hi.peak
  · have hx0 : x.2.toNat ≠ 0 := fun e => h0 (BitVec.eq_of_toNat_eq e)
    rw [if_neg h0]
    by_cases h1 : m.count = 0#64
    · have hc0 : calls h = 0 := by rw [← hi.count, h1]; rfl
      have ht0 := (calls_zero h).mp hc0
      rw [if_pos h1]
      refine ⟨rfl, hi.begun, (latest_append _ _ _).symm, ?_, ?_, ?_, ?_, hsort⟩
      · rw [total_append, ht0, Nat.zero_add]
      · rw [largest_append]
        have := largest_le h
        simp only []
        omega
      · rw [calls_append, if_neg h0, hc0]; rfl
      · rw [rates_append, if_neg h0, hc0]
        simpa using hi.peak
    · have hcn : calls h ≠ 0 := by
        rw [← hi.count]
        exact fun e => h1 (BitVec.eq_of_toNat_eq e)
      have ec := hi.count
      have ee := hi.events
      have h2 : ¬ OVERFLOW - m.count < 1#64 := by
        rw [BitVec.lt_def, BitVec.toNat_sub]
        simp only [OVERFLOW, BitVec.toNat_allOnes, BitVec.toNat_ofNat]
        omega
      have h3 : ¬ OVERFLOW - m.events < x.2 := by
        rw [BitVec.lt_def, BitVec.toNat_sub]
        simp only [OVERFLOW, BitVec.toNat_allOnes]
        omega
      rw [if_neg h1, if_neg h2, if_neg h3]
      have ev : (m.events + x.2).toNat = total (h ++ [x]) := by
        rw [total_append, BitVec.toNat_add, ee, Nat.mod_eq_of_lt ht]
      have cn : (m.count + 1#64).toNat = calls (h ++ [x]) := by
        rw [calls_append, if_neg h0, BitVec.toNat_add, ec]
        simp only [BitVec.toNat_ofNat]
        omega
      have bu : (if x.2 > m.burst then x.2 else m.burst).toNat = largest (h ++ [x]) := by
        rw [largest_append, ← hi.burst]
        split <;> rename_i hb <;> simp only [gt_iff_lt, BitVec.lt_def] at hb <;> omega
      have pk : IsPeak (rates rate false start (h ++ [x])) (if (rateOf rate m.last x).gt m.peak then rateOf rate m.last x else m.peak) := by
        rw [rates_append, if_neg h0, if_pos (Or.inr hcn), hi.last]
        exact peak_add hi.peak _
      by_cases h4 : x.1 = m.last
      · rw [if_pos h4]
        have : rateOf rate m.last x = .infinite := if_pos h4
        rw [this, gt_infinite] at pk
        exact ⟨rfl, hi.begun, (latest_append _ _ _).symm, ev, bu, cn, pk, hsort⟩
      · rw [if_neg h4]
        have : rateOf rate m.last x = .finite (rate x.2 (x.1 - m.last)) := if_neg h4
        rw [this] at pk
        exact ⟨rfl, hi.begun, (latest_append _ _ _).symm, ev, bu, cn, pk, hsort⟩

theorem add_bad {rate : Rating} {start : BitVec 64} {h : History} {m : Meter} (hi : Inv rate start h m) (x : BitVec 64 × BitVec 64)
    (hb : ¬ (latest start h ≤ x.1 ∧ total h + x.2.toNat < 2 ^ 64)) :
    (add rate m x.1 x.2).2 = false := by
  unfold add
  by_cases hlt : x.1 < m.last
  · rw [if_pos hlt]
  · have hs : latest start h ≤ x.1 := by
      rw [hi.last, BitVec.not_lt] at hlt
      exact hlt
    have ht : ¬ total h + x.2.toNat < 2 ^ 64 := fun h => hb ⟨hs, h⟩
    have hev := m.events.isLt
    have hxl := x.2.isLt
    have ee := hi.events
    have ec := hi.count
    have h0 : x.2 ≠ 0#64 := by
      intro e
      rw [e] at ht
      simp at ht
      omega
    have hx0 : x.2.toNat ≠ 0 := fun e => h0 (BitVec.eq_of_toNat_eq e)
    have h1 : m.count ≠ 0#64 := by
      intro e
      rw [e] at ec
      have := (calls_zero h).mp ec.symm
      omega
    rw [if_neg hlt, if_neg h0, if_neg h1]
    by_cases h2 : OVERFLOW - m.count < 1#64
    · rw [if_pos h2]
    · rw [if_neg h2, if_pos]
      rw [BitVec.lt_def, BitVec.toNat_sub]
      simp only [OVERFLOW, BitVec.toNat_allOnes]
      omega

theorem run_append (rate : Rating) (m : Meter) (a b : History) :
    run rate m (a ++ b) = ((run rate (run rate m a).1 b).1, (run rate m a).2 ++ (run rate (run rate m a).1 b).2) := by
  induction a generalizing m with
  | nil => rfl
  | cons x a ih => simp [run, ih]

theorem run_inv {rate : Rating} {start : BitVec 64} : ∀ (rest h : History) (m : Meter), Inv rate start h m →
    ((∀ b ∈ (run rate m rest).2, b = true) ↔ Sorted (latest start h) rest ∧ (rest = [] ∨ total h + total rest < 2 ^ 64)) ∧
    ((∀ b ∈ (run rate m rest).2, b = true) → Inv rate start (h ++ rest) (run rate m rest).1)
  | [], h, m, hi => by
    simp only [run, List.append_nil]
    refine ⟨by simp [Sorted], fun _ => hi⟩
  | x :: rest, h, m, hi => by
    have tx : total (x :: rest) = x.2.toNat + total rest := by simp [total]
    by_cases hok : latest start h ≤ x.1 ∧ total h + x.2.toNat < 2 ^ 64
    · obtain ⟨h1, h2⟩ := add_ok hi x hok.1 hok.2
      obtain ⟨i1, i2⟩ := run_inv rest (h ++ [x]) _ h2
      have e : (run rate m (x :: rest)) = ((run rate (add rate m x.1 x.2).1 rest).1, true :: (run rate (add rate m x.1 x.2).1 rest).2) := by
        simp only [run, h1]
      rw [e]
      simp only [List.mem_cons, forall_eq_or_imp, true_and]
      rw [latest_append, total_append] at i1
      refine ⟨?_, fun hb => ?_⟩
      · rw [i1, tx]
        simp only [Sorted, hok.1, true_and, List.cons_ne_nil, false_or]
        apply and_congr_right
        intro _
        constructor
        · rintro (rfl | h)
          · simp [total]; exact hok.2
          · omega
        · intro h
          exact Or.inr (by omega)
      · have := i2 hb
        simpa using this
    · have h1 := add_bad hi x hok
      have e : ∃ b ∈ (run rate m (x :: rest)).2, b ≠ true := ⟨false, by simp [run, h1], by simp⟩
      obtain ⟨b, hb1, hb2⟩ := e
      refine ⟨⟨fun h => absurd (h b hb1) hb2, ?_⟩, fun h => absurd (h b hb1) hb2⟩
      rintro ⟨hs, ht⟩
      simp only [Sorted, List.cons_ne_nil, false_or] at hs ht
      exact absurd ⟨hs.1, by omega⟩ hok

theorem zip_rates (rate : Rating) (x : BitVec 64 × BitVec 64) (h : History) (hu : ∀ y ∈ h, y.2 ≠ 0#64) :
    rates rate true x.1 h = ((x :: h).zip h).map fun p => rateOf rate p.1.1 p.2 := by
  induction h generalizing x with
  | nil => rfl
  | cons y h ih =>
    rw [rates, if_neg (hu y (by simp)), ih y (fun z hz => hu z (by simp [hz]))]
    rfl

end Diminuto.Meter
