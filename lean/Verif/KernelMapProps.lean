import Verif.KernelMap

/-!
# Properties of the mapping of physical memory in the kernel, and of the loading and unloading of the driver
-/

namespace Diminuto.KernelMap

/-- No two of the regions have an address in common, and none is empty. -/
def Apart (l : List Region) : Prop := (∀ r ∈ l, r.start ≤ r.last) ∧ l.Pairwise fun a b => overlap a b = false

/-- The page is one in which nothing is mapped. -/
def Fresh (k : Kernel) (choice : Option Nat) : Prop := ∀ page, choice = some page → ∀ m ∈ k.mappings, m.page ≠ page

/-- C124.  If the mapping succeeds, and is to be aligned, then the mapped physical memory begins with a page, contains what was asked for, and ends with it; the base is where the first byte of that is, so that byte for byte what is after the base is the physical memory that was asked for; and that is all that is mapped. -/
theorem map_aligned (k : Kernel) (v : Vars) (start length : Nat) (exclusive : Bool) (choice : Option Nat) (k' : Kernel) (v' : Vars) (h : map k v start length exclusive true choice = (0, k', v')) :
    ∃ page base address size, v'.page = some page ∧ v'.base = some base ∧ k'.mappings = ⟨page, address, size⟩ :: k.mappings ∧ 4096 ∣ address ∧ address ≤ start ∧ start < address + 4096 ∧ start + length = address + size ∧
      (∀ i, i < length → address ≤ start + i ∧ start + i < address + size ∧ base + i - page = start + i - address) := by
  have hmod : start % 4096 < 4096 := Nat.mod_lt _ (by decide)
  have hle : start % 4096 ≤ start := Nat.mod_le _ _
  have hdvd : 4096 ∣ start - start % 4096 := ⟨start / 4096, by have := Nat.div_add_mod start 4096; omega⟩
  have key : ∀ page : Nat, ∃ page' base address size, some page = some page' ∧ some (page + start % 4096) = some base ∧ (⟨page, start - start % PAGE, length + start % PAGE⟩ : Mapping) :: k.mappings = ⟨page', address, size⟩ :: k.mappings ∧
      4096 ∣ address ∧ address ≤ start ∧ start < address + 4096 ∧ start + length = address + size ∧
      (∀ i, i < length → address ≤ start + i ∧ start + i < address + size ∧ base + i - page' = start + i - address) := by
    intro page
    refine ⟨page, page + start % 4096, start - start % 4096, length + start % 4096, rfl, rfl, rfl, hdvd, by omega, by omega, by omega, ?_⟩
    intro i hi
    omega
  cases exclusive with
  | false =>
    cases choice with
    | none => simp [map, ioremap, ENOMEM] at h
    | some page =>
      simp [map, ioremap] at h
      rw [← h.1, ← h.2]
      exact key page
  | true =>
    rcases hq : request k start length with ⟨o, k1⟩
    have hm : k1.mappings = k.mappings := by
      have : k1 = (request k start length).2 := by rw [hq]
      rw [this]
      unfold request
      simp only []
      split <;> rfl
    cases o with
    | none => simp [map, hq, EPERM] at h
    | some r =>
      cases choice with
      | none => simp [map, hq, ioremap, ENOMEM] at h
      | some page =>
        simp [map, hq, ioremap] at h
        rw [← h.1, ← h.2]
        simp only [hm]
        exact key page

/-- C124.  Memory that has been asked for exclusively is not given to another one, as long as it has not been released: a region that is granted has no address in common with one in use. -/
theorem map_exclusive (k : Kernel) (v : Vars) (start length : Nat) (align : Bool) (choice : Option Nat) (k' : Kernel) (v' : Vars) (h : map k v start length true align choice = (0, k', v')) (ha : Apart k.regions) :
    v'.region = some ⟨start, start + length - 1⟩ ∧ Apart k'.regions ∧ k'.regions = ⟨start, start + length - 1⟩ :: k.regions := by
  by_cases hc : length = 0 ∨ k.regions.any (overlap ⟨start, start + length - 1⟩) = true
  · have hq : request k start length = (none, k) := by unfold request; simp only []; rw [if_pos hc]
    simp [map, hq, EPERM] at h
  · have hq : request k start length = (some ⟨start, start + length - 1⟩, { k with regions := ⟨start, start + length - 1⟩ :: k.regions }) := by unfold request; simp only []; rw [if_neg hc]
    cases choice with
    | none => simp [map, hq, ioremap, ENOMEM] at h
    | some page =>
      simp [map, hq, ioremap] at h
      rw [← h.1, ← h.2]
      refine ⟨rfl, ⟨?_, ?_⟩, rfl⟩
      · intro r hr
        rcases List.mem_cons.mp hr with rfl | hr
        · simp only
          omega
        · exact ha.1 r hr
      · refine List.Pairwise.cons ?_ ha.2
        intro r hr
        cases ho : overlap ⟨start, start + length - 1⟩ r with
        | false => rfl
        | true => exact absurd (Or.inr (List.any_eq_true.mpr ⟨r, hr, ho⟩)) hc

example : map ⟨[⟨0, 4095⟩], [], [], false, false⟩ ⟨none, none, none⟩ 4100 8 true true (some 65536) = (0, ⟨[⟨4100, 4107⟩, ⟨0, 4095⟩], [⟨65536, 4096, 12⟩], [], false, false⟩, ⟨some ⟨4100, 4107⟩, some 65540, some 65536⟩) := by decide

theorem filter_all {α : Type} (l : List α) (f : α → Bool) (h : ∀ x ∈ l, f x = true) : l.filter f = l := List.filter_eq_self.mpr h

theorem iounmap_fresh (k : Kernel) (m : Mapping) (h : ∀ n ∈ k.mappings, n.page ≠ m.page) : iounmap { k with mappings := m :: k.mappings } m.page = k := by
  unfold iounmap
  have : (m :: k.mappings).filter (fun n => ! (n.page = m.page : Bool)) = k.mappings := by
    rw [List.filter_cons_of_neg (by simp)]
    exact filter_all _ _ fun n hn => by simp [h n hn]
  simp only [this]

/-- C124.  When the driver has been loaded, its device is registered, its entry exists, and its registers are mapped. -/
theorem driver_load (p : Params) (ans : Answers) (k k' : Kernel) (v' : Vars) (h : init p ans k = (0, k', v')) :
    k'.entry = true ∧ (p.major ≠ 0 → p.major ∈ k'.majors) ∧ (p.major = 0 → k'.misc = true) ∧ ∃ page, v'.page = some page ∧ ∃ m ∈ k'.mappings, m.page = page := by
  rcases hmap : map k ⟨none, none, none⟩ p.start p.length p.exclusive true ans.page with ⟨rc, k1, v1⟩
  unfold init at h
  rw [hmap] at h
  simp only [] at h
  by_cases hrc : rc ≠ 0
  · rw [if_pos hrc] at h
    simp only [Prod.mk.injEq] at h
    exact absurd h.1 hrc
  · rw [if_neg hrc] at h
    have hrc : rc = 0 := Classical.not_not.mp hrc
    subst hrc
    obtain ⟨page, base, address, size, hp, -, hm, -⟩ := map_aligned _ _ _ _ _ _ _ _ hmap
    by_cases hr : ans.register ≠ 0
    · rw [if_pos hr] at h
      simp only [Prod.mk.injEq] at h
      exact absurd h.1 hr
    · rw [if_neg hr] at h
      by_cases he : ans.entry = false
      · rw [if_pos he] at h
        simp only [Prod.mk.injEq] at h
        exact absurd h.1 (by decide)
      · rw [if_neg he] at h
        simp only [Prod.mk.injEq, true_and] at h
        obtain ⟨h1, h2⟩ := h
        subst h1 h2
        unfold register
        by_cases hj : p.major ≠ 0
        · rw [if_pos hj]
          exact ⟨rfl, fun _ => List.mem_cons_self, fun h0 => absurd h0 hj, page, hp, ⟨page, address, size⟩, by simp only []; rw [hm]; exact List.mem_cons_self, rfl⟩
        · rw [if_neg hj]
          exact ⟨rfl, fun h0 => absurd h0 hj, fun _ => rfl, page, hp, ⟨page, address, size⟩, by simp only []; rw [hm]; exact List.mem_cons_self, rfl⟩

/-- C124.  When the driver has not been given the registers exclusively, has been loaded, and is unloaded, everything is as it was: nothing is mapped or registered any more. -/
theorem driver_unload_partial (p : Params) (ans : Answers) (k : Kernel) (hx : p.exclusive = false) (hf : Fresh k ans.page) (hm : p.major ∉ k.majors) (hk : k.misc = false ∧ k.entry = false) (k' : Kernel) (v' : Vars)
    (h : init p ans k = (0, k', v')) : ∃ v'', exit p k' v' = (k, v'') ∧ v''.page = none := by
  obtain ⟨start, length, exclusive, major⟩ := p
  simp only at hx hm
  subst hx
  obtain ⟨regions, mappings, majors, misc, entry⟩ := k
  obtain ⟨hk1, hk2⟩ := hk
  simp only at hk1 hk2 hm
  subst hk1 hk2
  obtain ⟨page, reg, ent⟩ := ans
  cases page with
  | none => simp [init, map, ioremap, ENOMEM] at h
  | some page =>
    by_cases hr : reg = 0
    · subst hr
      cases ent with
      | false => simp [init, map, ioremap, EIO] at h
      | true =>
        simp [init, map, ioremap] at h
        obtain ⟨h1, h2⟩ := h
        subst h1 h2
        have hfr := hf page rfl
        simp only at hfr
        refine ⟨⟨none, some (page + start % PAGE), none⟩, ?_, rfl⟩
        have hfm : (⟨page, start - start % PAGE, length + start % PAGE⟩ :: mappings : List Mapping).filter (fun n => ! (n.page = page : Bool)) = mappings := by
          rw [List.filter_cons_of_neg (by simp)]
          exact filter_all _ _ fun n hn => by simp [hfr n hn]
        by_cases hmj : major = 0
        · subst hmj
          simp only [exit, register, deregister, unmap, iounmap, ne_eq, not_true_eq_false, if_false, hfm]
        · have hfj : (major :: majors).filter (fun x => decide (x ≠ major)) = majors := by
            rw [List.filter_cons_of_neg (by simp)]
            exact filter_all _ _ fun n hn => by
              simp only [decide_eq_true_eq]
              rintro rfl
              exact hm hn
          simp only [exit, register, unregister, unmap, iounmap, ne_eq, hmj, not_false_eq_true, if_true, hfm]
          simp only [ne_eq] at hfj
          rw [hfj]
    · simp [init, map, ioremap, hr] at h

example : ∃ k' v', init ⟨4100, 8, false, 0⟩ ⟨some 65536, 0, true⟩ ⟨[], [], [], false, false⟩ = (0, k', v') := ⟨_, _, rfl⟩

/-- C124.  When the driver has not been given the registers exclusively, and has a major number of its own, and cannot be loaded, for whatever reason, everything is as it was. -/
theorem driver_fail_partial (p : Params) (ans : Answers) (k : Kernel) (hx : p.exclusive = false) (hmj : p.major ≠ 0) (hf : Fresh k ans.page) (hm : p.major ∉ k.majors) (rc : Int) (k' : Kernel) (v' : Vars)
    (h : init p ans k = (rc, k', v')) (hrc : rc ≠ 0) : k' = k := by
  obtain ⟨start, length, exclusive, major⟩ := p
  simp only at hx hm hmj
  subst hx
  obtain ⟨regions, mappings, majors, misc, entry⟩ := k
  simp only at hm
  obtain ⟨page, reg, ent⟩ := ans
  cases page with
  | none =>
    simp [init, map, ioremap, ENOMEM] at h
    exact h.2.1.symm
  | some page =>
    have hfr := hf page rfl
    simp only at hfr
    have hfm : (⟨page, start - start % PAGE, length + start % PAGE⟩ :: mappings : List Mapping).filter (fun n => ! (n.page = page : Bool)) = mappings := by
      rw [List.filter_cons_of_neg (by simp)]
      exact filter_all _ _ fun n hn => by simp [hfr n hn]
    have hfj : (major :: majors).filter (fun x => decide (x ≠ major)) = majors := by
      rw [List.filter_cons_of_neg (by simp)]
      exact filter_all _ _ fun n hn => by
        simp only [decide_eq_true_eq]
        rintro rfl
        exact hm hn
    by_cases hr : reg = 0
    · subst hr
      cases ent with
      | true =>
        simp [init, map, ioremap] at h
        exact absurd h.1.symm hrc
      | false =>
        simp only [init, map, ioremap, Bool.false_eq_true, if_false, if_true, ne_eq, not_true_eq_false, register, unregister, unmap, iounmap, hmj, not_false_eq_true, hfm, Prod.mk.injEq] at h
        simp only [ne_eq] at hfj
        rw [hfj] at h
        exact h.2.1.symm
    · simp only [init, map, ioremap, Bool.false_eq_true, if_false, if_true, ne_eq, not_true_eq_false, unmap, iounmap, hr, not_false_eq_true, hfm, Prod.mk.injEq] at h
      exact h.2.1.symm

example : ∃ v', init ⟨4100, 8, false, 240⟩ ⟨some 65536, 0, false⟩ ⟨[], [], [], false, false⟩ = (-5, ⟨[], [], [], false, false⟩, v') := ⟨_, rfl⟩

/-- C124.  Without a major number, when the entry cannot be created, the miscellaneous device stays registered although the driver has not been loaded: it is another device that is unregistered. -/
theorem driver_fail_counterexample : ∃ v', init ⟨4100, 8, false, 0⟩ ⟨some 65536, 0, false⟩ ⟨[], [], [], false, false⟩ = (-5, ⟨[], [], [], true, false⟩, v') := ⟨_, rfl⟩

/-- C124.  The region is never released: the number of bytes that is passed is one less than those of the region, and the kernel finds no such region.  This is so for every region of every kernel. -/
theorem free_counterexample (k : Kernel) (ha : Apart k.regions) (r : Region) (hr : r ∈ k.regions) : free k r = k := by
  have : k.regions.filter (fun s => ! (s.start = r.start && s.last + 1 = r.start + (r.last - r.start))) = k.regions := by
    apply filter_all
    intro s hs
    have h1 := ha.1 r hr
    have h2 := ha.1 s hs
    by_cases h : s.start = r.start
    · have : ¬ s.last + 1 = r.start + (r.last - r.start) := by
        intro he
        have hne : s ≠ r := by rintro rfl; omega
        have hov : overlap s r = true := by
          simp only [overlap, Bool.and_eq_true, decide_eq_true_eq]
          omega
        have hov2 : overlap r s = true := by
          simp only [overlap, Bool.and_eq_true, decide_eq_true_eq]
          omega
        have hp : ∀ (l : List Region), (l.Pairwise fun a b => overlap a b = false) → ∀ a ∈ l, ∀ b ∈ l, a ≠ b → overlap a b = false := by
          intro l hl
          induction hl with
          | nil => intro a ha; nomatch ha
          | cons h _ ih =>
            intro a ha b hb hab
            rcases List.mem_cons.mp ha with rfl | ha2
            · rcases List.mem_cons.mp hb with rfl | hb
              · exact absurd rfl hab
              · exact h b hb
            · rcases List.mem_cons.mp hb with rfl | hb
              · have := h a ha2
                simp only [overlap, Bool.and_eq_false_iff, decide_eq_false_iff_not] at this ⊢
                omega
              · exact ih a ha2 b hb hab
        rw [hp _ ha.2 s hs r hr hne] at hov
        nomatch hov
      simp [h, this]
    · simp [h]
  unfold free release
  rw [this]

/-- C124.  So a driver that has been given the registers exclusively and has been unloaded leaves them in use, and it cannot be loaded again. -/
theorem driver_unload_counterexample (p : Params) (ans : Answers) (k : Kernel) (hx : p.exclusive = true) (ha : Apart k.regions) (k' : Kernel) (v' : Vars) (h : init p ans k = (0, k', v')) (ans' : Answers) :
    (exit p k' v').1.regions = ⟨p.start, p.start + p.length - 1⟩ :: k.regions ∧ (init p ans' (exit p k' v').1).1 = -EPERM := by
  rcases hmap : map k ⟨none, none, none⟩ p.start p.length p.exclusive true ans.page with ⟨rc, k1, v1⟩
  have hrc : rc = 0 := by
    unfold init at h
    rw [hmap] at h
    simp only [] at h
    by_cases hrc : rc ≠ 0
    · rw [if_pos hrc] at h
      simp only [Prod.mk.injEq] at h
      exact absurd h.1 hrc
    · exact Decidable.not_not.mp hrc
  subst hrc
  rw [hx] at hmap
  obtain ⟨hv1, hap, hreg⟩ := map_exclusive k _ _ _ _ _ _ _ hmap ha
  have hkv : k'.regions = k1.regions ∧ v'.region = v1.region := by
    unfold init at h
    rw [hx, hmap] at h
    simp only [ne_eq, not_true_eq_false, if_false] at h
    split at h
    · rename_i hr
      simp only [Prod.mk.injEq] at h
      exact absurd h.1 hr
    · split at h
      · simp [EIO] at h
      · simp only [Prod.mk.injEq, true_and] at h
        rw [← h.1, ← h.2]
        refine ⟨?_, rfl⟩
        simp only [register]
        split <;> rfl
  have hfin : (exit p k' v').1.regions = k1.regions := by
    have hstep : ∀ (k2 : Kernel) (v2 : Vars), k2.regions = k1.regions → v2.region = v1.region → (unmap k2 v2 true).1.regions = k1.regions := by
      intro k2 v2 hk hv
      have hbody : ∀ (k3 : Kernel) (v3 : Vars), k3.regions = k1.regions → v3.region = v1.region →
          (match true, v3.region with | true, some r => (free k3 r, { v3 with region := none }) | _, _ => (k3, v3)).1.regions = k1.regions := by
        intro k3 v3 hk3 hv3
        rw [hv3, hv1]
        simp only []
        rw [free_counterexample k3 (by rw [hk3]; exact hap) _ (by rw [hk3, hreg]; exact List.mem_cons_self)]
        exact hk3
      unfold unmap
      cases v2.page with
      | none => exact hbody k2 v2 hk hv
      | some page => exact hbody (iounmap k2 page) { v2 with page := none } hk hv
    unfold exit
    rw [hx]
    simp only []
    apply hstep _ _ _ hkv.2
    split <;> exact hkv.1
  refine ⟨by rw [hfin, hreg], ?_⟩
  generalize exit p k' v' = z at hfin
  obtain ⟨k2, v2⟩ := z
  simp only at hfin ⊢
  have hov : k2.regions.any (overlap ⟨p.start, p.start + p.length - 1⟩) = true := by
    rw [hfin, hreg]
    simp [overlap]
    left
    have := hap.1 ⟨p.start, p.start + p.length - 1⟩ (by rw [hreg]; exact List.mem_cons_self)
    simpa using this
  have hq : request k2 p.start p.length = (none, k2) := by
    unfold request
    simp only []
    rw [if_pos (Or.inr hov)]
  simp [init, map, hx, hq, EPERM]

example : Apart [] ∧ ∃ k' v', init ⟨4100, 8, true, 240⟩ ⟨some 65536, 0, true⟩ ⟨[], [], [], false, false⟩ = (0, k', v') := ⟨⟨(by intro r h; nomatch h), .nil⟩, _, _, rfl⟩

/-- C124.  The same happens when the memory cannot be mapped: the registers stay in use although the driver has not been loaded. -/
theorem map_fail_counterexample : ∃ v', init ⟨4100, 8, true, 240⟩ ⟨none, 0, true⟩ ⟨[], [], [], false, false⟩ = (-12, ⟨[⟨4100, 4107⟩], [], [], false, false⟩, v') := ⟨_, rfl⟩

end Diminuto.KernelMap
