import Verif.ScatterGatherLemmas3

/-!
# Lemmas: every call of Scatter/Gather
-/

namespace Diminuto.ScatterGather

open Diminuto.DList Diminuto.Well

variable {N : Nat}

theorem recordFree_inv {s : State N} {v : View N} (hi : Inv s v) {p r : Fin N} (hp : v.role p = .pool)
    (hr : v.role r = .record) : ∃ s', recordFree s p r = some s' ∧ Inv s' ((v.freedAll p r).freed p r) := by
  have hlen := nodup_length_le _ (hi.holds.nodup r)
  obtain ⟨s1, e1, i1⟩ := segmentsFree_inv (v.queue r) s v p r (N + 1) hi hp hr rfl (by simp at hlen; omega)
  have hpr : r ≠ p := by rintro rfl; rw [hp] at hr; simp at hr
  have hr1 : (v.freedAll p r).role r = .record := by
    unfold View.freedAll
    simp only []
    rw [if_neg (hi.roles.root (Or.inr (Or.inl hr)) r)]
    exact hr
  have hp1 : (v.freedAll p r).role p = .pool := by
    unfold View.freedAll
    simp only []
    rw [if_neg (hi.roles.root (Or.inl hp) r)]
    exact hp
  have hq1 : (v.freedAll p r).queue r = [] := by
    unfold View.freedAll set
    simp [hpr]
  have hl1 := i1.roles.root (Or.inr (Or.inl hr1))
  obtain ⟨h2, e2, i2⟩ := remove_holds i1.holds hq1
  have hd1 : s1.data r = none := i1.mem.other r (by rw [hr1]; simp)
  have hd2 : ∀ s : State N, s.data r = none → set s.data r none = s.data := by
    intro s hs
    funext x
    unfold set
    split
    · rename_i hx
      rw [hx, hs]
    · rfl
  rw [without_of_not_mem hl1] at i2
  obtain ⟨h3, e3, i3⟩ := poolPut_loose (s := ⟨h2, s1.data, s1.bufs⟩) i2 (i1.roles.root (Or.inl hp1)) hl1 hq1 hpr
  refine ⟨⟨h3, s1.data, s1.bufs⟩, ?_, i3, roles_freed i1.holds i1.roles hp1 (by rw [hr1]; simp) hq1, ?_⟩
  · unfold recordFree
    rw [e1, Option.bind_some]
    unfold nodeFini
    rw [e2, Option.map_some, Option.bind_some]
    have e4 : dataset { s1 with heap := h2 } r none = ⟨h2, s1.data, s1.bufs⟩ := by
      unfold dataset
      simp only []
      congr 1
      exact hd2 s1 hd1
    rw [e4, e3]
    simp only []
    rw [hd2 s1 hd1]
  · apply i1.mem.congr
    intro x g
    unfold View.freed set
    simp only []
    by_cases hx : x = r
    · rw [if_pos hx, hx, hr1]
      simp
    · rw [if_neg hx]

theorem freedAll_freed (v : View N) (p r : Fin N) (hl : ∀ x, r ∉ v.queue x) :
    (v.freedAll p r).freed p r = ⟨set (set v.queue r []) p (v.queue p ++ v.queue r ++ [r]),
          fun x => if x = r ∨ x ∈ v.queue r then .spare else v.role x⟩ := by
  unfold View.freed View.freedAll
  congr 1
  · funext x
    simp only [set]
    by_cases h1 : x = p
    · simp [h1]
    · rw [if_neg h1, if_neg h1]
      unfold without set
      rw [if_neg h1]
      by_cases h2 : x = r
      · simp [h2]
      · rw [if_neg h2]
        exact List.erase_of_not_mem (hl x)
  · funext x
    simp only [set]
    by_cases h1 : x = r <;> simp [h1]

/-- What finishing a pool does. -/
def View.drained (v : View N) (p : Fin N) : View N :=
  ⟨set v.queue p [], fun x => if x ∈ v.queue p then .idle else v.role x⟩

theorem poolFini_inv (l : List (Fin N)) : ∀ (s : State N) (v : View N) (p : Fin N) (fuel : Nat), Inv s v →
    v.role p = .pool → v.queue p = l → l.length < fuel →
    ∃ s', poolFini p fuel s = some s' ∧ Inv s' (v.drained p) := by
  induction l with
  | nil =>
    intro s v p fuel hi hp hl hf
    obtain ⟨fuel, rfl⟩ : ∃ k, fuel = k + 1 := ⟨fuel - 1, by simp at hf; omega⟩
    have e : v.drained p = v := by
      unfold View.drained
      rw [hl]
      cases v with
      | mk q ro =>
        simp only [List.not_mem_nil, if_false, View.mk.injEq, and_true]
        funext x
        unfold set
        simp only [] at hl
        split
        · rename_i h2
          rw [h2, hl]
        · rfl
    refine ⟨s, ?_, by rw [e]; exact hi⟩
    unfold poolFini
    rw [head_holds hi.holds (hi.roles.root (Or.inl hp)), hl]
    rfl
  | cons n l ih =>
    intro s v p fuel hi hp hl hf
    obtain ⟨fuel, rfl⟩ : ∃ k, fuel = k + 1 := ⟨fuel - 1, by simp at hf; omega⟩
    have hn := hi.roles.spares hp n (by rw [hl]; simp)
    have hnp : p ≠ n := by rintro rfl; rw [hp] at hn; simp at hn
    obtain ⟨h1, e1, i1⟩ := remove_holds hi.holds (hi.holds.leaf p n (by rw [hl]; simp))
    rw [set_without_self _ hi.holds hl] at i1
    have hnd := hi.holds.nodup p
    rw [hl, List.nodup_cons, List.nodup_cons] at hnd
    have hi1 : Inv { s with heap := h1 } ⟨set v.queue p l, set v.role n .idle⟩ := by
      refine ⟨i1, ?_, hi.mem.congr ?_⟩
      · intro x y hy
        unfold set at *
        simp only [] at hy ⊢
        have hyx : y ∈ v.queue x ∧ y ≠ n := by
          split at hy
          · rename_i h2
            rw [h2, hl]
            exact ⟨List.mem_cons_of_mem _ hy, by rintro rfl; exact hnd.2.1 hy⟩
          · rename_i h2
            refine ⟨hy, ?_⟩
            rintro rfl
            exact h2 (hi.holds.uniq hy (by rw [hl]; simp))
        rw [if_neg hyx.2, if_neg]
        · exact hi.roles x y hyx.1
        · rintro rfl
          rw [hi.holds.leaf p x (by rw [hl]; simp)] at hyx
          simp at hyx
      · intro x g
        unfold set
        simp only []
        by_cases hx : x = n
        · rw [if_pos hx, hx, hn]
          simp
        · rw [if_neg hx]
    obtain ⟨s2, e2, i2⟩ := ih _ _ p fuel hi1 (by simp only [set]; rw [if_neg hnp]; exact hp)
      (by simp [set]) (by simp at hf; omega)
    refine ⟨s2, ?_, ?_⟩
    · unfold poolFini
      rw [head_holds hi.holds (hi.roles.root (Or.inl hp)), hl]
      simp only [List.head?_cons]
      rw [e1, Option.bind_some, e2]
    · have : View.drained ⟨set v.queue p l, set v.role n .idle⟩ p = v.drained p := by
        unfold View.drained
        rw [hl]
        congr 1
        · funext x
          simp only [set]
          by_cases h1 : x = p <;> simp [h1]
        · funext x
          simp only [set, if_true, List.mem_cons]
          by_cases h1 : x ∈ l <;> simp [h1]
      rw [this] at i2
      exact i2

/-- Taking the first node of a pool. -/
theorem poolGet_take {s : State N} {v : View N} (hi : Inv s v) {p n : Fin N} {l : List (Fin N)} (hl : v.queue p = n :: l) :
    ∃ h', DList.pop s.heap p = some (h', some n) ∧ Holds h' (set v.queue p l) := pop_holds hi.holds hl

theorem roles_take {s : State N} {v : View N} (hi : Inv s v) {p n : Fin N} {l : List (Fin N)}
    (hl : v.queue p = n :: l) (R : Role) : Roles ⟨set v.queue p l, set v.role n R⟩ := by
  have hnd := hi.holds.nodup p
  rw [hl, List.nodup_cons, List.nodup_cons] at hnd
  intro x y hy
  unfold set at *
  simp only [] at hy ⊢
  have hyx : y ∈ v.queue x ∧ y ≠ n := by
    split at hy
    · rename_i h2
      rw [h2, hl]
      exact ⟨List.mem_cons_of_mem _ hy, by rintro rfl; exact hnd.2.1 hy⟩
    · rename_i h2
      refine ⟨hy, ?_⟩
      rintro rfl
      exact h2 (hi.holds.uniq hy (by rw [hl]; simp))
  rw [if_neg hyx.2, if_neg]
  · exact hi.roles x y hyx.1
  · rintro rfl
    rw [hi.holds.leaf p x (by rw [hl]; simp)] at hyx
    simp at hyx

theorem bufs_none {s : State N} {v : View N} (hi : Inv s v) {b : Nat}
    (hb : ∀ n g, v.role n = .segment g → g.address ≠ b) : s.bufs b = none := by
  apply Classical.byContradiction
  intro hc
  obtain ⟨n, g, h1, h2⟩ := hi.mem.noleak b hc
  exact hb n g h1 h2

theorem total_toNat (size : BitVec 64) (hs : size.toNat + 8 < 2 ^ 64) : (8 + size).toNat = 8 + size.toNat := by
  rw [BitVec.toNat_add, Nat.mod_eq_of_lt]
  · rfl
  · have : (8 : BitVec 64).toNat = 8 := rfl
    omega

theorem bufferMalloc_some {s : State N} {size : BitVec 64} (hs : size.toNat + 8 < 2 ^ 64) {b : Nat}
    (junk : Nat → Byte) (hb : s.bufs b = none) : bufferMalloc s (8 + size) (some (b, junk)) =
      some (⟨s.heap, s.data, set s.bufs b (some ⟨0, (List.range size.toNat).map junk⟩)⟩, some b) := by
  have ht := total_toNat size hs
  unfold bufferMalloc
  rw [if_neg]
  · simp only [hb, if_true]
    rw [ht, Nat.add_sub_cancel_left]
    rfl
  · intro hc
    rw [hc] at ht
    have : (0 : BitVec 64).toNat = 0 := rfl
    omega

theorem segmentAllocate_inv {s : State N} {v : View N} (hi : Inv s v) {p n : Fin N} {q : List (Fin N)} {size : BitVec 64}
    {b : Nat} {junk : Nat → Byte} (hp : v.role p = .pool) (hq : v.queue p = n :: q) (hs : size.toNat + 8 < 2 ^ 64)
    (hb : ∀ n g, v.role n = .segment g → g.address ≠ b) :
    ∃ s', segmentAllocate s p size (some (b, junk)) = some (s', some n) ∧
      Inv s' ⟨set v.queue p q, set v.role n (.segment ⟨b, size.toNat, (List.range size.toNat).map junk⟩)⟩ := by
  have hbn := bufs_none hi hb
  have hn := hi.roles.spares hp n (by rw [hq]; simp)
  obtain ⟨h1, e1, i1⟩ := poolGet_take hi hq
  have hm := hi.mem.new (n := n) (g := ⟨b, size.toNat, (List.range size.toNat).map junk⟩) (by rw [hn]; simp) hbn
    ⟨by simp, by simp only [List.length_map, List.length_range]; omega⟩
  refine ⟨⟨h1, set s.data n (some b),
    set s.bufs b (some ⟨BitVec.ofNat 64 size.toNat, (List.range size.toNat).map junk⟩)⟩, ?_, i1, roles_take hi hq _, hm⟩
  unfold segmentAllocate
  rw [bufferMalloc_some hs junk hbn]
  simp only [Option.bind_some]
  unfold poolGet
  simp only [e1, Option.map_some, Option.bind_some]
  unfold lengthSet dataset
  simp only [set, if_true, Option.bind_some, Option.map_some, Option.some.injEq, Prod.mk.injEq, and_true]
  congr 1
  funext y
  unfold set
  by_cases hy : y = b
  · simp [hy]
  · simp [hy]

theorem segmentNoNode_inv {s : State N} {v : View N} (hi : Inv s v) {p : Fin N} {size : BitVec 64}
    {b : Nat} {junk : Nat → Byte} (hp : v.role p = .pool) (hq : v.queue p = []) (hs : size.toNat + 8 < 2 ^ 64)
    (hb : ∀ n g, v.role n = .segment g → g.address ≠ b) :
    segmentAllocate s p size (some (b, junk)) = some (s, none) := by
  have hbn := bufs_none hi hb
  unfold segmentAllocate
  rw [bufferMalloc_some hs junk hbn]
  simp only [Option.bind_some]
  unfold poolGet
  simp only []
  rw [pop_empty hi.holds (hi.roles.root (Or.inl hp)) hq]
  simp only [Option.map_some, Option.bind_some]
  unfold bufferFree
  simp only [set, if_true]
  rw [if_neg (by simp)]
  simp only [Option.map_some, Option.some.injEq, Prod.mk.injEq, and_true]
  cases s with
  | mk hp dt bf =>
    simp only [State.mk.injEq, true_and]
    funext y
    simp only [] at hbn
    by_cases hy : y = b
    · simp [hy, hbn]
    · simp [hy]

/-- Moving segments about. -/
theorem roles_links {v : View N} (hr : Roles v) {q : Fin N → List (Fin N)}
    (h : ∀ x, ∀ y ∈ q x, y ∈ v.queue x ∨ (v.role x = .record ∧ ∃ g, v.role y = .segment g)) :
    Roles (⟨q, v.role⟩ : View N) := by
  intro x y hy
  rcases h x y hy with h1 | ⟨h1, g, h2⟩
  · exact hr x y h1
  · simp only []
    rw [h1, h2]
    trivial

theorem enumerate_inv {s : State N} {v : View N} (hi : Inv s v) {r : Fin N} (hr : v.role r = .record) :
    enumerate s r = some (BitVec.ofNat 64 (v.queue r).length) := by
  unfold enumerate
  rw [segments_holds hi.holds (hi.roles.root (Or.inr (Or.inl hr)))]
  simp only [Option.map_some, count_foldl]
  simp

theorem measure_inv {s : State N} {v : View N} (hi : Inv s v) {r : Fin N} (hr : v.role r = .record) :
    measure s r = some (BitVec.ofNat 64 (v.content r).length) := by
  unfold measure
  rw [segments_holds hi.holds (hi.roles.root (Or.inr (Or.inl hr))), Option.bind_some,
    measureLoop_mem hi.mem _ (hi.roles.segments hr)]
  simp [View.content, bytes_eq]

theorem sound_iff (hN : N < 2 ^ 64) {s : State N} {v : View N} (hi : Inv s v) (r : Fin N) :
    (0 < BitVec.ofNat 64 (v.queue r).length ∧ BitVec.ofNat 64 (v.queue r).length ≤ MAXIMUM) ↔ v.Sound r := by
  have hlen := nodup_length_le _ (hi.holds.nodup r)
  simp only [List.length_cons] at hlen
  unfold View.Sound MAXIMUM
  rw [BitVec.lt_def, BitVec.le_def, BitVec.toNat_ofNat, Nat.mod_eq_of_lt (by omega)]
  rfl

theorem vectorize_inv (hN : N < 2 ^ 64) {s : State N} {v : View N} (hi : Inv s v) {r : Fin N} (hr : v.role r = .record) :
    vectorize s r (BitVec.ofNat 64 (v.queue r).length) = some (some ((v.queue r).map (entry v.role))) := by
  have hlen := nodup_length_le _ (hi.holds.nodup r)
  simp only [List.length_cons] at hlen
  unfold vectorize
  rw [segments_holds hi.holds (hi.roles.root (Or.inr (Or.inl hr))), Option.bind_some]
  have := vectorizeLoop_mem hi.mem _ (hi.roles.segments hr) (v.queue r).length 0 [] (by omega) (by omega)
  simpa using this

theorem output_inv (hN : N < 2 ^ 64) {s : State N} {v : View N} (hi : Inv s v) {r : Fin N} (hr : v.role r = .record)
    (total : Int) (k : Option Nat) :
    (¬ v.Sound r → output total s r k = some (total, [])) ∧
    (v.Sound r → output total s r none = some (-1, [])) ∧
    (∀ k, v.Sound r → output total s r (some k) =
      some (((min k (v.content r).length : Nat) : Int), (v.content r).take k)) := by
  unfold output
  simp only [enumerate_inv hi hr, Option.bind_some]
  have hsi := sound_iff hN hi r
  refine ⟨fun h => by rw [if_pos (fun hc => h (hsi.1 hc))], fun h => ?_, fun k h => ?_⟩
  · rw [if_neg (fun hc => hc (hsi.2 h)), vectorize_inv hN hi hr]
    simp only [Option.bind_some]
    rw [gather_mem hi.mem _ (hi.roles.segments hr)]
    rfl
  · rw [if_neg (fun hc => hc (hsi.2 h)), vectorize_inv hN hi hr]
    simp only [Option.bind_some]
    rw [gather_mem hi.mem _ (hi.roles.segments hr)]
    simp [View.content, bytes_eq]

theorem input_inv (hN : N < 2 ^ 64) {s : State N} {v : View N} (hi : Inv s v) {r : Fin N} (hr : v.role r = .record)
    (total : Int) (d : Option (List Byte)) :
    (¬ v.Sound r → input total s r d = some (s, total)) ∧
    (v.Sound r → input total s r none = some (s, -1)) ∧
    (∀ d, v.Sound r → ∃ s', input total s r (some d) = some (s', ((min d.length (v.content r).length : Nat) : Int)) ∧
      Inv s' { v with role := v.received r d }) := by
  unfold input
  simp only [enumerate_inv hi hr, Option.bind_some]
  have hsi := sound_iff hN hi r
  refine ⟨fun h => by rw [if_pos (fun hc => h (hsi.1 hc))], fun h => ?_, fun d h => ?_⟩
  · rw [if_neg (fun hc => hc (hsi.2 h)), vectorize_inv hN hi hr]
    simp only [Option.bind_some]
  · rw [if_neg (fun hc => hc (hsi.2 h)), vectorize_inv hN hi hr]
    simp only [Option.bind_some]
    obtain ⟨s', e, i1, i2, i3⟩ := scatter_mem (v.queue r) s v.role d (List.nodup_cons.1 (hi.holds.nodup r)).2 hi.mem
      (hi.roles.segments hr)
    refine ⟨s', ?_, ?_, ?_, ?_⟩
    · rw [scatter_take, e, room_mem hi.mem _ (hi.roles.segments hr), Option.map_some]
      simp [View.content, bytes_eq, Nat.min_comm]
    · rw [i1]
      exact hi.holds
    · intro x y hy
      have := hi.roles x y hy
      simp only [View.received]
      cases hx : v.role x <;> cases hy' : v.role y <;> rw [hx, hy'] at this <;>
        first
        | trivial
        | (simp only []; split <;> trivial)
    · exact i3

theorem roles_segment {v : View N} (hr : Roles v) {n : Fin N} {g : Segment} (hn : v.role n = .segment g) (g' : Segment) :
    Roles (⟨v.queue, set v.role n (.segment g')⟩ : View N) := by
  intro x y hy
  have := hr x y hy
  simp only [set]
  by_cases hx : x = n
  · rw [hx, hn] at this
    cases hy' : v.role y <;> rw [hy'] at this <;> exact absurd this (by simp [Fits])
  · rw [if_neg hx]
    by_cases hy' : y = n
    · rw [if_pos hy']
      rw [hy', hn] at this
      cases hx' : v.role x <;> rw [hx'] at this <;> trivial
    · rw [if_neg hy']
      exact this

theorem step_inv (hN : N < 2 ^ 64) (s : State N) (v : View N) (hi : Inv s v) (o : Op N) (v' : View N)
    (r : Result N) (h : View.Step v o v' r) : ∃ s', step s o = some (s', r) ∧ Inv s' v' := by
  have seg_empty : ∀ {n g}, v.role n = .segment g → v.queue n = [] := fun {n g} hn =>
    hi.roles.empty (by rw [hn]; simp) (by rw [hn]; simp)
  have seg_ne : ∀ {n g r}, v.role n = .segment g → v.role r = .record → n ≠ r := by
    rintro n g r h1 h2 rfl
    rw [h1] at h2
    simp at h2
  have rec_root : ∀ {r}, v.role r = .record → ∀ p, r ∉ v.queue p := fun {r} hr =>
    hi.roles.root (Or.inr (Or.inl hr))
  cases h with
  | @put p n hp hn =>
    obtain ⟨s', e, i⟩ := put_inv hi hp hn
    refine ⟨s', by simp only [step, e, Option.map_some], ?_⟩
    unfold View.freed at i
    rwa [without_of_not_mem (hi.roles.root (Or.inr (Or.inr hn)))] at i
  | @poolFini p hp =>
    have hlen := nodup_length_le _ (hi.holds.nodup p)
    obtain ⟨s', e, i⟩ := poolFini_inv (v.queue p) s v p (N + 1) hi hp rfl (by simp at hlen; omega)
    exact ⟨s', by simp only [step, e, Option.map_some], i⟩
  | @segmentNoMemory p size hp =>
    refine ⟨s, ?_, hi⟩
    simp only [step, segmentAllocate, bufferMalloc, ite_self, Option.bind_some, Option.map_some]
  | @segmentNoNode p size b junk hp hq hs hb =>
    refine ⟨s, ?_, hi⟩
    simp only [step, segmentNoNode_inv hi hp hq hs hb, Option.map_some]
  | @segmentAllocate p n q size b junk hp hq hs hb =>
    obtain ⟨s', e, i⟩ := segmentAllocate_inv hi (junk := junk) hp hq hs hb
    exact ⟨s', by simp only [step, e, Option.map_some], i⟩
  | @recordNoNode p hp hq =>
    refine ⟨s, ?_, hi⟩
    simp only [step, poolGet]
    rw [pop_empty hi.holds (hi.roles.root (Or.inl hp)) hq]
    rfl
  | @recordAllocate p n q hp hq =>
    have hn := hi.roles.spares hp n (by rw [hq]; simp)
    obtain ⟨h1, e1, i1⟩ := poolGet_take hi hq
    refine ⟨⟨h1, s.data, s.bufs⟩, by simp only [step, poolGet, e1, Option.map_some], i1, roles_take hi hq _,
      hi.mem.congr ?_⟩
    intro x g
    unfold set
    simp only []
    by_cases hx : x = n
    · rw [if_pos hx, hx, hn]
      simp
    · rw [if_neg hx]
  | @segmentFree p n g hp hn =>
    obtain ⟨s', e, i⟩ := segmentFree_inv hi hp hn
    exact ⟨s', by simp only [step, e, Option.map_some], i⟩
  | @recordSegmentFree p n g hp hn =>
    obtain ⟨s', e, i⟩ := recordSegmentFree_inv hi hp hn
    exact ⟨s', by simp only [step, e, Option.map_some], i⟩
  | @segmentsFree p r hp hr =>
    have hlen := nodup_length_le _ (hi.holds.nodup r)
    obtain ⟨s', e, i⟩ := segmentsFree_inv (v.queue r) s v p r (N + 1) hi hp hr rfl (by simp at hlen; omega)
    exact ⟨s', by simp only [step, e, Option.map_some], i⟩
  | @recordFree p r hp hr =>
    obtain ⟨s', e, i⟩ := recordFree_inv hi hp hr
    rw [freedAll_freed v p r (rec_root hr)] at i
    exact ⟨s', by simp only [step, e, Option.map_some], i⟩
  | @append r n g hr hn hq =>
    obtain ⟨h', e, i⟩ := enqueue_holds hi.holds (rec_root hr) hq (seg_empty hn) (seg_ne hn hr)
    refine ⟨{ s with heap := h' }, by simp only [step, link, e, Option.map_some], i, roles_links hi.roles ?_, hi.mem⟩
    intro x y hy
    unfold set at hy
    split at hy
    · rename_i hx
      rw [hx]
      rcases List.mem_append.1 hy with h | h
      · exact Or.inl h
      · rw [List.mem_singleton.1 h]
        exact Or.inr ⟨hr, g, hn⟩
    · exact Or.inl ((mem_without hi.holds n x y).1 hy).2
  | @prepend r n g hr hn =>
    obtain ⟨h', e, i⟩ := push_holds hi.holds (rec_root hr) (seg_empty hn) (seg_ne hn hr)
    refine ⟨{ s with heap := h' }, by simp only [step, link, e, Option.map_some], i, roles_links hi.roles ?_, hi.mem⟩
    intro x y hy
    unfold set at hy
    split at hy
    · rename_i hx
      rw [hx]
      rcases List.mem_cons.1 hy with h | h
      · rw [h]
        exact Or.inr ⟨hr, g, hn⟩
      · exact Or.inl (List.mem_of_mem_erase h)
    · exact Or.inl ((mem_without hi.holds n x y).1 hy).2
  | @insert r o n g a b hr hn ho hq =>
    obtain ⟨h', e, i⟩ := splice_holds hi.holds (o := o) (rec_root hr) (by rw [ho]; simp) hq (seg_empty hn) (seg_ne hn hr)
    rw [ho, insertAfter_mid o n r a b (by rw [← ho]; exact hi.holds.nodup r)] at i
    refine ⟨{ s with heap := h' }, by simp only [step, link, e, Option.map_some], i, roles_links hi.roles ?_, hi.mem⟩
    intro x y hy
    unfold set at hy
    split at hy
    · rename_i hx
      rw [hx, ho]
      by_cases hyn : y = n
      · rw [hyn]
        exact Or.inr ⟨hr, g, hn⟩
      · left
        simp only [List.mem_append, List.mem_cons, hyn, false_or] at hy ⊢
        exact hy
    · exact Or.inl hy
  | @replace r o n g a b hr hn ho hq =>
    obtain ⟨h', e, i⟩ := replace_holds hi.holds (rec_root hr) ho hq (seg_empty hn) (seg_ne hn hr)
    refine ⟨{ s with heap := h' }, by simp only [step, link, e, Option.map_some], i, roles_links hi.roles ?_, hi.mem⟩
    intro x y hy
    unfold set at hy
    split at hy
    · rename_i hx
      rw [hx, ho]
      by_cases hyn : y = n
      · rw [hyn]
        exact Or.inr ⟨hr, g, hn⟩
      · left
        simp only [List.mem_append, List.mem_cons, hyn, false_or] at hy ⊢
        rcases hy with h | h
        · exact Or.inl h
        · exact Or.inr (Or.inr h)
    · exact Or.inl ((mem_without hi.holds n x y).1 hy).2
  | @remove n g hn =>
    obtain ⟨h', e, i⟩ := remove_holds hi.holds (seg_empty hn)
    refine ⟨{ s with heap := h' }, by simp only [step, link, e, Option.map_some], i, roles_links hi.roles ?_, hi.mem⟩
    intro x y hy
    exact Or.inl ((mem_without hi.holds n x y).1 hy).2
  | @setLength n g ll hn hl =>
    obtain ⟨m1, m2, m3⟩ := hi.mem.seg n g hn
    have hm := hi.mem.change (g1 := { g with length := ll.toNat }) hn rfl ⟨hl, m3.2⟩
    refine ⟨⟨s.heap, s.data, set s.bufs g.address (some _)⟩, ?_, hi.holds, roles_segment hi.roles hn _, hm⟩
    · simp only [step, lengthSet, m1, m2, Option.bind_some, Option.map_some]
      simp [Segment.buffer]
      rfl
  | @fill n g d hn hl =>
    obtain ⟨m1, m2, m3⟩ := hi.mem.seg n g hn
    have hm := hi.mem.change (g1 := { g with payload := d }) hn rfl
      ⟨by simp only [hl]; exact m3.1, by simp only [hl]; exact m3.2⟩
    refine ⟨⟨s.heap, s.data, set s.bufs g.address (some _)⟩, ?_, hi.holds, roles_segment hi.roles hn _, hm⟩
    · simp only [step, fill, m1, m2, Option.bind_some]
      rw [if_pos (by simpa [Segment.buffer] using hl)]
      simp [Segment.buffer]
      rfl
  | @enumerate r hr => exact ⟨s, by simp only [step, enumerate_inv hi hr, Option.map_some], hi⟩
  | @measure r hr => exact ⟨s, by simp only [step, measure_inv hi hr, Option.map_some], hi⟩
  | @writeUnsound r k hr hs =>
    exact ⟨s, by simp only [step, (output_inv hN hi hr (-1) k).1 hs, Option.map_some], hi⟩
  | @writeFail r hr =>
    by_cases hs : v.Sound r
    · exact ⟨s, by simp only [step, (output_inv hN hi hr (-1) none).2.1 hs, Option.map_some], hi⟩
    · exact ⟨s, by simp only [step, (output_inv hN hi hr (-1) none).1 hs, Option.map_some], hi⟩
  | @write r k hr hs =>
    exact ⟨s, by simp only [step, (output_inv hN hi hr (-1) none).2.2 k hs, Option.map_some], hi⟩
  | @sendUnsound r k hr hs =>
    exact ⟨s, by simp only [step, (output_inv hN hi hr 0 k).1 hs, Option.map_some], hi⟩
  | @sendFail r hr hs =>
    exact ⟨s, by simp only [step, (output_inv hN hi hr 0 none).2.1 hs, Option.map_some], hi⟩
  | @send r k hr hs =>
    exact ⟨s, by simp only [step, (output_inv hN hi hr 0 none).2.2 k hs, Option.map_some], hi⟩
  | @readUnsound r d hr hs =>
    exact ⟨s, by simp only [step, (input_inv hN hi hr (-1) d).1 hs, Option.map_some], hi⟩
  | @readFail r hr =>
    by_cases hs : v.Sound r
    · exact ⟨s, by simp only [step, (input_inv hN hi hr (-1) none).2.1 hs, Option.map_some], hi⟩
    · exact ⟨s, by simp only [step, (input_inv hN hi hr (-1) none).1 hs, Option.map_some], hi⟩
  | @read r d hr hs =>
    obtain ⟨s', e, i⟩ := (input_inv hN hi hr (-1) none).2.2 d hs
    exact ⟨s', by simp only [step, e, Option.map_some], i⟩
  | @receiveUnsound r d hr hs =>
    exact ⟨s, by simp only [step, (input_inv hN hi hr 0 d).1 hs, Option.map_some], hi⟩
  | @receiveFail r hr hs =>
    exact ⟨s, by simp only [step, (input_inv hN hi hr 0 none).2.1 hs, Option.map_some], hi⟩
  | @receive r d hr hs =>
    obtain ⟨s', e, i⟩ := (input_inv hN hi hr 0 none).2.2 d hs
    exact ⟨s', by simp only [step, e, Option.map_some], i⟩

theorem run_inv (hN : N < 2 ^ 64) (os : List (Op N)) (v v' : View N) (rs : List (Result N))
    (h : View.Run v os v' rs) : ∀ s, Inv s v → ∃ s', run s os = some (s', rs) ∧ Inv s' v' := by
  induction h with
  | nil => exact fun s hi => ⟨s, rfl, hi⟩
  | cons hs _ ih =>
    intro s hi
    obtain ⟨s1, e1, i1⟩ := step_inv hN s _ hi _ _ _ hs
    obtain ⟨s2, e2, i2⟩ := ih s1 i1
    exact ⟨s2, by simp only [run, e1, Option.bind_some, e2, Option.map_some], i2⟩

end Diminuto.ScatterGather
