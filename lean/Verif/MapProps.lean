import Verif.MapSpec

/-!
# Properties: mapped memory
-/

namespace Diminuto.Map

variable {σ : Type}

/-- The machine is honest except that `munmap(2)` of a part of the mapping fails. -/
theorem machine_honest (full : Bool) : Honest (machine full) 4096 memory where
  open_ := fun _ => rfl
  close := fun _ _ => rfl
  failed := by
    intro n fd a s s' h
    simp only [machine] at h
    split at h
    · simp at h
    · simp at h; rw [h]
  mapped := by
    intro n fd a s s' base h
    simp only [machine] at h
    split at h
    · rename_i hc
      simp only [Prod.mk.injEq, Option.some.injEq] at h
      obtain ⟨rfl, rfl⟩ := h
      refine ⟨hc.1, hc.2.2.1, by decide, by decide, ?_, ?_, ?_⟩
      · simp only [whole]
        have : (65536#64).toNat = 65536 := by decide
        omega
      · intro v _; simp only [memory]; rw [hc.2.2.2]
      · funext v; simp only [memory]; rw [hc.2.2.2]; rfl
    · simp at h
  kept := by
    intro b n s s' rc h hrc
    simp only [machine] at h
    split at h
    · simp at h; omega
    · split at h
      · simp at h; omega
      · simp at h; rw [h.2]
  unmapped := by
    intro b n s s' rc h hrc
    simp only [machine] at h
    split at h
    · rename_i hs
      simp at h
      refine ⟨h.1.symm, ?_⟩
      rw [← h.2]
      funext v; simp only [memory, hs]; simp
    · rename_i m a hs
      split at h
      · rename_i hc
        simp only [Prod.mk.injEq] at h
        refine ⟨h.1.symm, ?_⟩
        rw [← h.2]
        have hb : b.toNat = 65536 := by rw [hc.1]; decide
        have hw' : ∀ v, within 4096 b.toNat n.toNat v ↔ within 4096 65536 m v := by
          intro v; simp only [within, hb, hc.2]
        funext v; simp only [memory, hs]
        by_cases hv : within 4096 65536 m v
        · rw [if_pos ((hw' v).mpr hv)]
        · rw [if_neg (fun h => hv ((hw' v).mp h)), if_neg hv]
      · simp at h; omega

theorem whole_ge (page n : Nat) (h : 0 < page) : n ≤ whole page n := by
  simp only [whole]
  have h1 := Nat.div_add_mod (n + page - 1) page
  have h2 := Nat.mod_lt (n + page - 1) h
  rw [Nat.mul_comm] at h1
  omega

/-- C94.  If mapping memory succeeds, every byte of the physical memory that was asked for is there, in order, at the address that is returned; nothing else is mapped but the rest of
the pages, and nothing that was mapped is lost.  If it fails nothing is changed and there is nothing to unmap. -/
theorem map_maps_partial {w : World σ} {page : BitVec 31} {memory : σ → Nat → Option Nat} (hw : Honest w page.toNat memory) (hp : 0 < page.toNat) (start length : BitVec 64)
    (hl : length.toNat + start.toNat % page.toNat < 2 ^ 64) (s s' : σ) (r : BitVec 64) (p : Stored) (h : map w page start length s = (r, p, s')) :
    (r = 0#64 → p = ⟨0#64, 0#64⟩ ∧ memory s' = memory s) ∧
    (r ≠ 0#64 → r.toNat + length.toNat ≤ 2 ^ 64 ∧ (∀ i, i < length.toNat → memory s' (r.toNat + i) = some (start.toNat + i)) ∧
      (∀ v, memory s v ≠ none → memory s' v = memory s v) ∧
      (∀ v, memory s' v ≠ memory s v → r.toNat < v + page.toNat ∧ v < r.toNat + length.toNat + page.toNat)) := by
  have hpg : (page.setWidth 64).toNat = page.toNat := by
    have := page.isLt
    rw [BitVec.toNat_setWidth]; omega
  have hoff : (start % page.setWidth 64).toNat = start.toNat % page.toNat := by rw [BitVec.toNat_umod, hpg]
  have hofflt := Nat.mod_lt start.toNat hp
  have hofle := Nat.mod_le start.toNat page.toNat
  have hsize : (length + start % page.setWidth 64).toNat = length.toNat + start.toNat % page.toNat := by
    rw [BitVec.toNat_add, hoff]; omega
  have hadd : (start - start % page.setWidth 64).toNat = start.toNat - start.toNat % page.toNat := by
    rw [BitVec.toNat_sub, hoff]
    have := start.isLt
    omega
  rcases ho : w.open_ s with ⟨fd, s1⟩
  have ho' := hw.open_ s
  rw [ho] at ho'
  simp only [map, ho] at h
  split at h
  · simp only [Prod.mk.injEq] at h
    obtain ⟨rfl, rfl, rfl⟩ := h
    exact ⟨fun _ => ⟨rfl, ho'⟩, fun hn => absurd rfl hn⟩
  · rcases hm : w.mmap (length + start % page.setWidth 64) fd (start - start % page.setWidth 64) s1 with ⟨b, s2⟩
    rw [hm] at h
    cases b with
    | none =>
      simp only [Prod.mk.injEq] at h
      obtain ⟨rfl, rfl, rfl⟩ := h
      refine ⟨fun _ => ⟨rfl, ?_⟩, fun hn => absurd rfl hn⟩
      rw [hw.close, hw.failed _ _ _ _ _ hm, ho']
    | some base =>
      simp only [Prod.mk.injEq] at h
      obtain ⟨rfl, rfl, rfl⟩ := h
      obtain ⟨m1, m2, m3, m4, m5, m6, m7⟩ := hw.mapped _ _ _ _ _ _ hm
      rw [hsize] at m1 m5 m6 m7
      rw [hadd] at m7
      have hge := whole_ge page.toNat (length.toNat + start.toNat % page.toNat) hp
      have hlt : whole page.toNat (length.toNat + start.toNat % page.toNat) < length.toNat + start.toNat % page.toNat + page.toNat := by
        simp only [whole]
        have := Nat.div_mul_le_self (length.toNat + start.toNat % page.toNat + page.toNat - 1) page.toNat
        omega
      have hr : (base + start % page.setWidth 64).toNat = base.toNat + start.toNat % page.toNat := by
        rw [BitVec.toNat_add, hoff]
        have : base.toNat + start.toNat % page.toNat < 2 ^ 64 := by
          by_cases hl0 : length.toNat = 0
          · have : 1 * page.toNat ≤ whole page.toNat (length.toNat + start.toNat % page.toNat) :=
              Nat.mul_le_mul_right _ ((Nat.le_div_iff_mul_le hp).mpr (by omega))
            omega
          · omega
        omega
      refine ⟨fun h0 => ?_, fun _ => ?_⟩
      · exfalso
        rw [h0] at hr
        simp at hr; omega
      · rw [hr, hw.close, m7]
        refine ⟨by omega, ?_, ?_, ?_⟩
        · intro i hi
          simp only []
          rw [if_pos ⟨by omega, by omega⟩]
          congr 1
          omega
        · intro v hv
          simp only []
          rw [if_neg, ho']
          intro hc
          rw [← ho'] at hv
          exact hv (m6 v hc)
        · intro v hv
          simp only [] at hv
          split at hv
          · rename_i hc
            simp only [within] at hc
            omega
          · exact absurd (by rw [ho']) hv

example : (map (machine false) 4096#31 0x20003004#64 8192#64 (none, 0, none)).1 = 65540#64 ∧
    memory (map (machine false) 4096#31 0x20003004#64 8192#64 (none, 0, none)).2.2 (65540 + 8191) = some (0x20003004 + 8191) := by decide +kernel

/-- C94.  It is false without the precondition: a length that is so large that the size of the mapping is not a number of 64 bits is accepted, and only a few bytes of the memory that was asked
for are there. -/
theorem map_wraps_counterexample : ∃ (w : World (Option (Nat × Nat) × Nat × Option Nat)) (start length : BitVec 64) (s : Option (Nat × Nat) × Nat × Option Nat),
    Honest w 4096 memory ∧ (map w 4096#31 start length s).1 ≠ 0#64 ∧
    ∃ i, i < length.toNat ∧ memory (map w 4096#31 start length s).2.2 ((map w 4096#31 start length s).1.toNat + i) = none := by
  refine ⟨machine false, 4095#64, BitVec.ofNat 64 (2 ^ 64 - 4000), (none, 0, none), machine_honest false, by decide +kernel, 65536, by decide +kernel, by decide +kernel⟩

/-- C94.  Unmapping what was mapped restores the memory and clears the variables, so that to do it again does nothing; if it fails nothing is changed. -/
theorem unmap_undoes {w : World σ} {page : BitVec 31} {memory : σ → Nat → Option Nat} (hw : Honest w page.toNat memory) (start length : BitVec 64)
    (s s1 s2 s3 : σ) (r : BitVec 64) (p q : Stored) (rc : Int) (h : map w page start length s = (r, p, s1)) (hs : memory s2 = memory s1) (hu : unmap w p s2 = (rc, q, s3)) :
    (rc = 0 ∧ q = ⟨0#64, 0#64⟩ ∧ memory s3 = memory s) ∨ (rc < 0 ∧ q = p ∧ memory s3 = memory s2) := by
  rcases ho : w.open_ s with ⟨fd, t1⟩
  have ho' := hw.open_ s
  rw [ho] at ho'
  simp only [map, ho] at h
  have hzero : p = ⟨0#64, 0#64⟩ → memory s1 = memory s → rc = 0 ∧ q = ⟨0#64, 0#64⟩ ∧ memory s3 = memory s := by
    intro hp hm
    rw [hp] at hu
    simp only [unmap, if_true] at hu
    simp only [Prod.mk.injEq] at hu
    exact ⟨hu.1.symm, hu.2.1.symm, by rw [← hu.2.2, hs, hm]⟩
  split at h
  · simp only [Prod.mk.injEq] at h
    left
    exact hzero h.2.1.symm (by rw [← h.2.2, ho'])
  · rcases hm : w.mmap (length + start % page.setWidth 64) fd (start - start % page.setWidth 64) t1 with ⟨b, t2⟩
    rw [hm] at h
    cases b with
    | none =>
      simp only [Prod.mk.injEq] at h
      left
      exact hzero h.2.1.symm (by rw [← h.2.2, hw.close, hw.failed _ _ _ _ _ hm, ho'])
    | some base =>
      simp only [Prod.mk.injEq] at h
      obtain ⟨rfl, rfl, rfl⟩ := h
      obtain ⟨m1, m2, m3, m4, m5, m6, m7⟩ := hw.mapped _ _ _ _ _ _ hm
      rcases hmu : w.munmap base (length + start % page.setWidth 64) s2 with ⟨c, t3⟩
      simp only [unmap, hmu] at hu
      rw [if_neg (by intro h0; rw [h0] at m1; simp at m1)] at hu
      split at hu
      · rename_i hc
        simp only [Prod.mk.injEq] at hu
        obtain ⟨rfl, rfl, rfl⟩ := hu
        exact Or.inr ⟨hc, rfl, hw.kept _ _ _ _ _ hmu hc⟩
      · rename_i hc
        simp only [Prod.mk.injEq] at hu
        obtain ⟨rfl, rfl, rfl⟩ := hu
        obtain ⟨hz, hmem⟩ := hw.unmapped _ _ _ _ _ hmu (by omega)
        refine Or.inl ⟨hz, rfl, ?_⟩
        rw [hmem, hs, hw.close, m7]
        funext v
        simp only []
        split
        · rename_i hv; rw [← ho']; exact (m6 v hv).symm
        · rw [ho']

example : unmap (machine false) (map (machine false) 4096#31 0x20003004#64 8192#64 (none, 0, none)).2.1 (map (machine false) 4096#31 0x20003004#64 8192#64 (none, 0, none)).2.2 =
    (0, ⟨0#64, 0#64⟩, (none, 0, none)) := by decide +kernel

/-- C94.  The device is closed, exactly once, whatever the calls do. -/
theorem map_closes (w : World σ) (page : BitVec 31) (start length : BitVec 64) (s : σ) (l : List Int) (b : Bool) :
    (map (tracked w) page start length (s, l, b)).2.2.2 = (l, b) := by
  simp only [map, tracked]
  split
  · rfl
  · rcases hm : w.mmap (length + start % page.setWidth 64) (w.open_ s).1 (start - start % page.setWidth 64) (w.open_ s).2 with ⟨c, t⟩
    cases c <;> simp

example : (map (tracked (machine false)) 4096#31 4096#64 1#64 ((none, 0, none), [], false)).1 = 65536#64 := by decide +kernel

/-- C94.  Setting the minimum needs the privileges; if it succeeds, and the file could be opened, exactly the value was printed and the stream was closed without an error. -/
theorem minimum_sets (w : World σ) (value : BitVec 64) (s s' : σ) (h : minimum w value s = (0, s')) :
    (w.getuid s = 0 ∨ w.geteuid s = 0) ∧ ((w.openmin s).1 < 0 ∧ s' = (w.openmin s).2 ∨
      ∃ s1 rc s2, 0 ≤ (w.openmin s).1 ∧ w.fdopen (w.openmin s).1 (w.openmin s).2 = (true, s1) ∧ w.fprintf (w.openmin s).1 value s1 = (rc, s2) ∧ 0 ≤ rc ∧
        w.fclose (w.openmin s).1 s2 = (true, s')) := by
  rcases ho : w.openmin s with ⟨fd, s1⟩
  simp only [minimum, ho] at h
  split at h
  · simp [finish] at h
  · rename_i hid
    refine ⟨by omega, ?_⟩
    split at h
    · rename_i hfd
      left
      simp only [finish, Bool.false_eq_true, if_false] at h
      rw [if_pos hfd] at h
      simp only [Prod.mk.injEq] at h
      exact ⟨hfd, h.2.symm⟩
    · rename_i hfd
      right
      rcases hf : w.fdopen fd s1 with ⟨o, s2⟩
      rw [hf] at h
      cases o with
      | false =>
        simp only [finish, Bool.false_eq_true, if_false] at h
        rw [if_neg hfd] at h
        split at h <;> simp at h
      | true =>
        rcases hpf : w.fprintf fd value s2 with ⟨rc, s3⟩
        simp only [hpf] at h
        split at h
        · simp only [finish, if_true] at h
          rcases hc : w.fclose fd s3 with ⟨c, s4⟩
          rw [hc] at h
          cases c with
          | true => simp at h
          | false =>
            simp only [] at h
            rw [if_neg hfd] at h
            split at h <;> simp at h
        · rename_i hrc
          simp only [finish, if_true] at h
          rcases hc : w.fclose fd s3 with ⟨c, s4⟩
          rw [hc] at h
          cases c with
          | true =>
            simp at h
            exact ⟨s2, rc, s3, by omega, rfl, hpf, by omega, by rw [hc, h]⟩
          | false =>
            simp only [] at h
            rw [if_neg hfd] at h
            split at h <;> simp at h

example : minimum (machine false) 65536#64 (none, 4096, none) = (0, none, 65536, none) := by decide +kernel

/-- C94.  With the privileges, and if all calls succeed, the value is printed and the result is success; either the real or the effective user suffices. -/
theorem minimum_succeeds (w : World σ) (value : BitVec 64) (s s1 s2 s3 s' : σ) (fd rc : Int) (hid : w.getuid s = 0 ∨ w.geteuid s = 0) (h1 : w.openmin s = (fd, s1)) (hfd : 0 ≤ fd)
    (h2 : w.fdopen fd s1 = (true, s2)) (h3 : w.fprintf fd value s2 = (rc, s3)) (hrc : 0 ≤ rc) (h4 : w.fclose fd s3 = (true, s')) : minimum w value s = (0, s') := by
  simp only [minimum, h1]
  rw [if_neg (by omega), if_neg (by omega)]
  simp only [h2, h3]
  rw [if_neg (by omega)]
  simp [finish, h4]

example : minimum { machine false with geteuid := fun _ => 1000 } 65536#64 (none, 4096, none) = (0, none, 65536, none) :=
  minimum_succeeds _ _ _ _ _ _ _ 3 1 (Or.inl rfl) rfl (by decide) rfl rfl (by decide) rfl

/-- C94.  If the stream can be closed without an error, or is not opened, the file that was opened is closed exactly once. -/
theorem minimum_closes_partial (w : World σ) (hc : ∀ fd s, (w.fclose fd s).1 = true) (value : BitVec 64) (s : σ) (l : List Int) (b : Bool) :
    (minimum (tracked w) value (s, l, b)).2.2 = (l, b) := by
  have hneg : ∀ x : Int, ¬ x < 0 → ¬ x = -1 := by intro x; omega
  simp only [minimum]
  split
  · simp [finish]
  · simp only [tracked]
    split
    · rename_i h
      simp only [finish, Bool.false_eq_true, if_false]
      rw [if_pos h]
    · rename_i h
      rcases hf : w.fdopen (w.openmin s).1 (w.openmin s).2 with ⟨o, t⟩
      cases o with
      | false =>
        simp only [finish, Bool.false_eq_true, if_false]
        rw [if_neg h]
        split <;> simp
      | true =>
        simp only [finish, if_true]
        split <;> simp [hc]

example : ∀ fd s, ((machine false).fclose fd s).1 = true := by intro fd s; simp [machine]

/-- C94.  If closing the stream fails, the descriptor, which is closed nevertheless, is closed a second time: another thread may have opened a file with that number. -/
theorem minimum_twice_counterexample : ∃ (w : World (Option (Nat × Nat) × Nat × Option Nat)) (value : BitVec 64) (s : Option (Nat × Nat) × Nat × Option Nat),
    (minimum (tracked w) value (s, [], false)).2.2.2 = true :=
  ⟨machine true, 65536#64, (none, 4096, none), by decide +kernel⟩

/-- C94.  That the minimum could not be set is not always told: if the file cannot be opened the result is success. -/
theorem minimum_silent_counterexample : ∃ (w : World (Option (Nat × Nat) × Nat × Option Nat)) (value : BitVec 64) (s s' : Option (Nat × Nat) × Nat × Option Nat),
    minimum w value s = (0, s') ∧ s'.2.1 ≠ value.toNat :=
  ⟨{ machine false with openmin := fun s => (-1, s) }, 65536#64, (none, 4096, none), (none, 4096, none), by decide +kernel⟩

end Diminuto.Map
