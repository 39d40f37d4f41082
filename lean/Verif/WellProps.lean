import Verif.WellLemmas

/-!
# Properties C41 and C66: the Well
-/

namespace Diminuto.Well

open Diminuto.DList

variable {M : Nat}

/-! ## C41 -/

/-- C41: every history of calls on a new well, with whatever pointers are freed, never gets stuck and returns
what a queue would: allocation gives the first of the queue and fails exactly when it is
empty, freeing puts last. -/
theorem well_refines_queue (M control data size : Nat) (os : List Op) :
    ∃ w w', init M control data size = some w ∧
      run w os = some (w', (View.run ⟨objects M data size, 0⟩ os).2) ∧
      (isempty w' = true ↔ (View.run ⟨objects M data size, 0⟩ os).1.queue = []) ∧
      (isfull w' = true ↔ (View.run ⟨objects M data size, 0⟩ os).1.used = 0) := by
  obtain ⟨w, fs, h1, h2, h3⟩ := init_inv M control data size
  obtain ⟨w', fs', us', r1, r2, r3⟩ := run_refines os w fs [] h2
  rw [h3] at r1 r3
  refine ⟨w, w', h1, r1, ?_, ?_⟩
  · rw [← r3]
    obtain ⟨A, hR, hf, hu⟩ := r2
    unfold isempty
    rw [(not_empty_of hR hf).1]
    simp [viewOf]
  · rw [← r3]
    obtain ⟨A, hR, hf, hu⟩ := r2
    unfold isfull
    rw [(not_empty_of hR hu).1]
    simp [viewOf]

/-- C41: as long as the application only frees what it holds, at any time every object is either free or held, never
both, and freeing succeeds. -/
theorem well_free_or_held (M data size : Nat) (hs : 0 < size) (os : List Op) (h : List Nat)
    (hh : held ⟨objects M data size, 0⟩ [] os = some h) :
    let v := View.run ⟨objects M data size, 0⟩ os
    (v.1.queue ++ h).Perm (objects M data size) ∧ (v.1.queue ++ h).Nodup ∧ ∀ r ∈ v.2, r ≠ .ok false := by
  obtain ⟨a, b, c⟩ := held_perm os _ _ _ hh rfl
  have hn : (objects M data size).Nodup := by
    unfold objects
    apply List.Nodup.map _ List.nodup_range
    intro i j hij
    simp only at hij
    exact Nat.eq_of_mul_eq_mul_right hs (by omega)
  simp only [List.append_nil] at b
  exact ⟨b, (b.nodup_iff).2 hn, c⟩

example : held ⟨objects 2 1000 64, 0⟩ [] [.alloc, .alloc, .alloc, .free 1064, .alloc, .free 1000] = some [1064] ∧
    (View.run ⟨objects 2 1000 64, 0⟩ [.alloc, .alloc, .alloc, .free 1064, .alloc, .free 1000]).2 =
      [.pointer (some 1000), .pointer (some 1064), .pointer none, .ok true, .pointer (some 1064), .ok true] := by
  decide

/-- C41 without that: a pointer that is freed twice, or that is not of the well, is accepted if any object is in use, and
is handed out twice. -/
theorem well_double_free_counterexample :
    (View.run ⟨objects 2 1000 64, 0⟩ [.alloc, .alloc, .free 1000, .free 1000, .alloc, .alloc]).2 =
      [.pointer (some 1000), .pointer (some 1064), .ok true, .ok true, .pointer (some 1000), .pointer (some 1000)] ∧
    (View.run ⟨objects 2 1000 64, 0⟩ [.alloc, .free 7, .alloc, .alloc]).2 =
      [.pointer (some 1000), .ok true, .pointer (some 1064), .pointer (some 7)] := by decide

/-! ## C66: where the objects are -/

/-- C66, the part that holds: for an alignment not beyond half of the address space and sizes that do not overflow, every object
is large enough, is inside of the data area, does not overlap another, and is aligned if the data area is.
Missing: that the data area is aligned, which is false for alignments beyond the page size. -/
theorem well_layout_partial (size count align : BitVec 64) (ha : align.toNat ≤ 2 ^ 63)
    (ho : size.toNat + 2 ^ 63 < 2 ^ 64) (s total : BitVec 64)
    (hs : objectSize size count align = some (s, total)) (hc : s.toNat * count.toNat < 2 ^ 64) (data : Nat) :
    size.toNat ≤ s.toNat ∧
    (∀ p ∈ objects count.toNat data s.toNat, data ≤ p ∧ p + s.toNat ≤ data + total.toNat) ∧
    (∀ p ∈ objects count.toNat data s.toNat, ∀ q ∈ objects count.toNat data s.toNat, p ≠ q →
      p + s.toNat ≤ q ∨ q + s.toNat ≤ p) ∧
    ∃ a, Memory.Least (fun n => Memory.IsPowerOfTwo n ∧ align.toNat ≤ n) a ∧
      (a ∣ data → ∀ p ∈ objects count.toNat data s.toNat, a ∣ p) := by
  obtain ⟨a, e1, h1, -⟩ := Memory.memory_power_least align
  have h1 := h1 ha
  unfold objectSize at hs
  rw [e1, Option.map_some] at hs
  simp only [Option.some.injEq, Prod.mk.injEq] at hs
  obtain ⟨rfl, rfl⟩ := hs
  have ha' : a.toNat ≤ 2 ^ 63 := h1.2 _ ⟨⟨63, rfl⟩, ha⟩
  obtain ⟨⟨hd, hle⟩, -⟩ := Memory.memory_alignment_least size a h1.1.1 (by omega)
  generalize hS : (Memory.alignment size a).toNat = S at *
  have htot : (Memory.alignment size a * count).toNat = S * count.toNat := by
    rw [BitVec.toNat_mul, hS, Nat.mod_eq_of_lt hc]
  have hmem : ∀ p, p ∈ objects count.toNat data S ↔ ∃ i, i < count.toNat ∧ data + i * S = p := by
    intro p
    simp [objects]
  refine ⟨hle, ?_, ?_, a.toNat, h1, ?_⟩
  · intro p hp
    obtain ⟨i, hi, rfl⟩ := (hmem p).1 hp
    rw [htot]
    have : (i + 1) * S ≤ count.toNat * S := Nat.mul_le_mul_right _ hi
    rw [Nat.succ_mul] at this
    rw [Nat.mul_comm S]
    omega
  · intro p hp q hq hne
    obtain ⟨i, hi, rfl⟩ := (hmem p).1 hp
    obtain ⟨j, hj, rfl⟩ := (hmem q).1 hq
    rcases Nat.lt_trichotomy i j with h | h | h
    · have : (i + 1) * S ≤ j * S := Nat.mul_le_mul_right _ h
      rw [Nat.succ_mul] at this
      omega
    · exact absurd (by rw [h]) hne
    · have : (j + 1) * S ≤ i * S := Nat.mul_le_mul_right _ h
      rw [Nat.succ_mul] at this
      omega
  · intro hda p hp
    obtain ⟨i, hi, rfl⟩ := (hmem p).1 hp
    exact Nat.dvd_add hda (Nat.dvd_trans hd (Nat.dvd_mul_left _ _))

example : objectSize 100 10 48 = some (128, 1280) := by decide +kernel

/-- C66 is false if the sizes overflow: of 2^60 objects of 16 bytes the data area is empty. -/
theorem well_layout_counterexample :
    objectSize 16 (BitVec.ofNat 64 (2 ^ 60)) 16 = some (16, 0) := by decide +kernel

/-- C66 is false for alignments beyond the page size: the data area is aligned to the page only (this one
is at 4096), and the first object with it. -/
theorem well_alignment_counterexample :
    objectSize 8192 2 8192 = some (8192, 16384) ∧ (Memory.aligned 4096 16384).1 = 4096 ∧
    4096 ∈ objects 2 4096 8192 ∧ ¬ 8192 ∣ 4096 := by decide +kernel

end Diminuto.Well
