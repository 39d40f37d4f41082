import Verif.FdMapSpec

/-!
# Properties: tables of descriptors
-/

namespace Diminuto.FdMap

theorem heap_honest (limit : Nat) : Honest (heap limit) := by
  intro n l h
  simp only [heap] at h
  split at h
  · simp only [Option.some.injEq] at h; rw [← h]; simp
  · cases h

theorem signExtend_pos (fd : BitVec 32) (h : 0 ≤ fd.toInt) : (fd.signExtend 64).toNat = fd.toNat := by
  have h1 : (fd.signExtend 64).toInt = fd.toInt := BitVec.toInt_signExtend_of_le (by decide)
  have hlt := fd.isLt
  have h2 : fd.toInt = fd.toNat := by
    rw [BitVec.toInt_eq_toNat_cond] at h ⊢
    split at h
    · rw [if_pos (by assumption)]
    · omega
  have hf := (fd.signExtend 64).isLt
  rw [BitVec.toInt_eq_toNat_cond] at h1
  split at h1 <;> omega

theorem toInt_pos (fd : BitVec 32) (h : 0 ≤ fd.toInt) : fd.toInt = fd.toNat := by
  rw [BitVec.toInt_eq_toNat_cond] at h ⊢
  split at h
  · rw [if_pos (by assumption)]
  · have := fd.isLt; omega

/-- C95.  A new table has a place for every descriptor that is less than the number, and for no other, and every pointer in it is null. -/
theorem map_new_partial {malloc : BitVec 64 → Option (List (BitVec 64))} (hm : Honest malloc) (count : BitVec 64) (hc : count.toNat < 2 ^ 61 - 1) (h : malloc (8#64 + count * 8#64) ≠ none) :
    ∃ t, alloc malloc count = some t ∧ Represents t count.toNat (fun _ => 0#64) := by
  have hs : (count * 8#64).toNat = count.toNat * 8 := by
    rw [BitVec.toNat_mul, show (8#64).toNat = 8 from rfl]
    omega
  have hs8 : (8#64 + count * 8#64).toNat = 8 + count.toNat * 8 := by
    rw [BitVec.toNat_add, hs]
    have : (8#64).toNat = 8 := by decide
    omega
  rcases hl : malloc (8#64 + count * 8#64) with _ | l
  · exact absurd hl h
  · have hlen := hm _ _ hl
    rw [hs8] at hlen
    refine ⟨⟨count, List.replicate count.toNat 0#64 ++ l.drop count.toNat⟩, ?_, ?_⟩
    · simp only [alloc, hl]
      rw [hs8, hs, if_neg (by omega), Nat.mul_div_cancel _ (by decide), if_neg (by omega)]
    · intro fd
      split
      · rename_i hfd
        have e := signExtend_pos fd hfd.1
        have e2 := toInt_pos fd hfd.1
        refine ⟨fd.toNat, ?_, ?_⟩
        · simp only [ref]
          rw [e, if_pos ⟨hfd.1, by omega⟩]
        · simp only [load]
          rw [List.getElem?_append_left (by simp; omega), List.getElem?_replicate, if_pos (by omega)]
      · rename_i hfd
        simp only [ref]
        rw [if_neg]
        intro hc'
        rw [signExtend_pos fd hc'.1] at hc'
        exact hfd ⟨hc'.1, by rw [toInt_pos fd hc'.1]; omega⟩

example : alloc (heap 1000) 3#64 = some ⟨3#64, [0#64, 0#64, 0#64]⟩ := by decide +kernel

/-- C95.  To store a pointer through the result for a descriptor changes what is loaded for that descriptor and for no other. -/
theorem map_store (t : Table) (n : Nat) (f : Nat → BitVec 64) (fd : BitVec 32) (value : BitVec 64) (i : Nat) (h : Represents t n f) (hr : ref t fd = some i) :
    ∃ t', store t i value = some t' ∧ Represents t' n (fun k => if k = fd.toNat then value else f k) := by
  have hi : 0 ≤ fd.toInt ∧ (fd.signExtend 64).toNat < t.count.toNat ∧ (fd.signExtend 64).toNat = i := by
    simp only [ref] at hr
    split at hr
    · rename_i hc; simp only [Option.some.injEq] at hr; exact ⟨hc.1, hc.2, hr⟩
    · cases hr
  have e := signExtend_pos fd hi.1
  have hfd := h fd
  split at hfd
  · obtain ⟨j, hj, hl⟩ := hfd
    rw [hr] at hj
    cases hj
    simp only [load] at hl
    have hlt : i < t.data.length := by
      rcases Nat.lt_or_ge i t.data.length with h' | h'
      · exact h'
      · rw [List.getElem?_eq_none h'] at hl; cases hl
    refine ⟨{ t with data := t.data.set i value }, if_pos hlt, ?_⟩
    intro gd
    have hg := h gd
    split at hg
    · rename_i hgd
      rw [if_pos hgd]
      obtain ⟨j, hj, hl'⟩ := hg
      refine ⟨j, hj, ?_⟩
      have hj' : j = gd.toNat := by
        simp only [ref] at hj
        split at hj
        · rename_i hc; rw [signExtend_pos gd hc.1] at hj; cases hj; rfl
        · cases hj
      simp only [load] at hl' ⊢
      rw [List.getElem?_set]
      by_cases hij : i = j
      · rw [if_pos hij, if_pos (by omega), if_pos (by omega)]
      · rw [if_neg hij, if_neg (by omega)]; exact hl'
    · rename_i hgd
      rw [if_neg hgd]; exact hg
  · rw [hr] at hfd; cases hfd

example : Represents ⟨3#64, [0#64, 0#64, 0#64]⟩ 3 (fun _ => 0#64) ∧ ref ⟨3#64, [0#64, 0#64, 0#64]⟩ 2#32 = some 2 := by
  refine ⟨?_, by decide +kernel⟩
  obtain ⟨t, h1, h2⟩ := map_new_partial (heap_honest 1000) 3#64 (by decide) (by decide +kernel)
  rw [show alloc (heap 1000) 3#64 = some ⟨3#64, [0#64, 0#64, 0#64]⟩ by decide +kernel] at h1
  cases h1
  exact h2

/-- C95.  Without memory the behaviour is undefined. -/
theorem map_memory_counterexample : ∃ (malloc : BitVec 64 → Option (List (BitVec 64))) (count : BitVec 64), Honest malloc ∧ alloc malloc count = none :=
  ⟨heap 1000, 1000#64, heap_honest 1000, by decide +kernel⟩

/-- C95.  For a number of descriptors that is so large that the size of the table is not a number of 64 bits, there is a table with a place outside of it. -/
theorem map_wraps_counterexample : ∃ (malloc : BitVec 64 → Option (List (BitVec 64))) (count : BitVec 64) (t : Table) (i : Nat),
    Honest malloc ∧ alloc malloc count = some t ∧ ref t 0#32 = some i ∧ load t i = none :=
  ⟨heap 1000, BitVec.ofNat 64 (2 ^ 61), ⟨BitVec.ofNat 64 (2 ^ 61), []⟩, 0, heap_honest 1000, by decide +kernel, by decide +kernel, rfl⟩

/-- C95.  The same for the number that is returned as the maximum when that cannot be got, or there is none: not even the number can be stored. -/
theorem map_unlimited_counterexample : ∃ (malloc : BitVec 64 → Option (List (BitVec 64))), Honest malloc ∧ malloc (8#64 + BitVec.ofInt 64 (-1) * 8#64) ≠ none ∧ alloc malloc (BitVec.ofInt 64 (-1)) = none :=
  ⟨heap 1000, heap_honest 1000, by decide +kernel, by decide +kernel⟩

/-- C96.  If a path is expanded the buffer has its canonical form, without the end that does not fit, and nothing behind the size is changed; otherwise nothing is changed. -/
theorem expand_partial (real : Option (List Byte)) (buffer : List Byte) (size : Nat) (hb : size ≤ buffer.length) (hz : ∀ p, real = some p → 0#8 ∉ p) :
    (expand real buffer size).2.length = buffer.length ∧ (expand real buffer size).2.drop size = buffer.drop size ∧
    match real with
    | none => expand real buffer size = (false, buffer)
    | some p => if size = 0 then expand real buffer size = (false, buffer) else (expand real buffer size).1 = true ∧ text (expand real buffer size).2 = p.take (size - 1) := by
  cases real with
  | none => exact ⟨rfl, rfl, rfl⟩
  | some p =>
    by_cases h0 : size = 0
    · simp only [expand, if_pos h0]; simp
    · simp only [expand, if_neg h0]
      have hl : (p.take size ++ List.replicate (size - p.length) 0#8).length = size := by
        simp only [List.length_append, List.length_take, List.length_replicate]; omega
      refine ⟨?_, ?_, ?_⟩
      · simp only [List.length_append, List.length_set, List.length_drop, hl]; omega
      · rw [List.drop_append_of_le_length (by simp only [List.length_set, hl]; omega), List.drop_of_length_le (by simp only [List.length_set, hl]; omega), List.nil_append]
      · refine ⟨trivial, ?_⟩
        have hne : ∀ b ∈ p.take (size - 1), (b ≠ 0#8) := by
          intro b hb' he
          exact hz p rfl (he ▸ List.mem_of_mem_take hb')
        have hsplit : ∃ l, (p.take size ++ List.replicate (size - p.length) 0#8).set (size - 1) 0#8 = p.take (size - 1) ++ 0#8 :: l := by
          by_cases hp : size ≤ p.length
          · refine ⟨[], ?_⟩
            rw [show size - p.length = 0 by omega, List.replicate_zero, List.append_nil]
            obtain ⟨m, rfl⟩ : ∃ m, size = m + 1 := ⟨size - 1, by omega⟩
            rw [Nat.add_sub_cancel, List.take_succ_eq_append_getElem (by omega : m < p.length), List.set_append_right _ _ (by simp; omega)]
            rw [show m - (p.take m).length = 0 by simp; omega]
            rfl
          · refine ⟨List.replicate (size - p.length - 1) 0#8, ?_⟩
            rw [List.take_of_length_le (by omega), List.take_of_length_le (by omega), List.set_append_right _ _ (by omega)]
            congr 1
            have : List.set (List.replicate (size - p.length) 0#8) (size - 1 - p.length) 0#8 = List.replicate (size - p.length) 0#8 := by
              apply List.ext_getElem (by simp)
              intro i h1 h2
              rw [List.getElem_set]
              split <;> simp
            rw [this, ← List.replicate_succ, show size - p.length - 1 + 1 = size - p.length by omega]
        obtain ⟨l, hl'⟩ := hsplit
        simp only [text]
        rw [hl', List.append_assoc, List.takeWhile_append_of_pos (by intro b hb'; simpa using hne b hb')]
        simp

example : expand (some [47#8, 98#8]) [1#8, 2#8, 3#8, 4#8, 5#8] 4 = (true, [47#8, 98#8, 0#8, 0#8, 5#8]) := by decide

/-- C96.  If the canonical form fits with its terminator, it is what is in the buffer. -/
theorem expand_fits (p : List Byte) (buffer : List Byte) (size : Nat) (hb : size ≤ buffer.length) (hz : 0#8 ∉ p) (hf : p.length < size) :
    (expand (some p) buffer size).1 = true ∧ text (expand (some p) buffer size).2 = p := by
  have h := (expand_partial (some p) buffer size hb (by intro q hq; cases hq; exact hz)).2.2
  simp only [] at h
  rw [if_neg (by omega)] at h
  refine ⟨h.1, ?_⟩
  rw [h.2, List.take_of_length_le (by omega)]

example : [47#8, 98#8].length < 3 := by decide

/-- C96.  If it does not fit, the result is success with the path of another object. -/
theorem expand_cut_counterexample : ∃ (p buffer : List Byte) (size : Nat), (expand (some p) buffer size).1 = true ∧ text (expand (some p) buffer size).2 ≠ p :=
  ⟨[47#8, 98#8, 99#8], [1#8, 2#8, 3#8], 3, by decide, by decide⟩

end Diminuto.FdMap
