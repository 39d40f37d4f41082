import Verif.ListLemmas2

/-!
# Helper lemmas on the List: the heap represents the rings
-/

namespace Diminuto.DList

variable {N : Nat}

/-- The heap holds exactly these rings. -/
def Rep (h : Heap N) (A : Rings N) : Prop :=
  (∀ l ∈ A, Ring h l) ∧ A.flatten.Nodup ∧ ∀ x, x ∈ A.flatten

theorem ring_ne_nil {h : Heap N} {l : List (Node N)} (hr : Ring h l) : l ≠ [] := by
  rintro rfl; exact hr

theorem rep_disjoint {h : Heap N} {A : Rings N} (hR : Rep h A) {l : List (Node N)} (hl : l ∈ A)
    {k : List (Node N)} (hk : k ∈ A.erase l) : ∀ y ∈ l, y ∉ k := by
  have hp : A.Perm (l :: A.erase l) := List.perm_cons_erase hl
  have hnd : (l :: A.erase l).flatten.Nodup := (hp.flatten.nodup_iff).mp hR.2.1
  rw [List.flatten_cons, List.nodup_append] at hnd
  intro y hy hyk
  exact hnd.2.2 y hy y (List.mem_flatten.mpr ⟨k, hk, hyk⟩) rfl

theorem rep_unique {h : Heap N} {A : Rings N} (hR : Rep h A) {l k : List (Node N)} (hl : l ∈ A)
    (hk : k ∈ A) {x : Node N} (hxl : x ∈ l) (hxk : x ∈ k) : l = k := by
  by_cases he : l = k
  · exact he
  · have : k ∈ A.erase l := (List.mem_erase_of_ne (fun h => he h.symm)).mpr hk
    exact absurd hxk (rep_disjoint hR hl this x hxl)

theorem ringOf_spec {h : Heap N} {A : Rings N} (hR : Rep h A) (x : Node N) :
    ringOf A x ∈ A ∧ x ∈ ringOf A x := by
  obtain ⟨l, hl, hx⟩ := List.mem_flatten.mp (hR.2.2 x)
  unfold ringOf
  cases hf : A.find? (fun l => l.contains x) with
  | none =>
    rw [List.find?_eq_none] at hf
    exact absurd (by simpa using hx) (hf l hl)
  | some k =>
    have h1 := List.mem_of_find?_eq_some hf
    have h2 := List.find?_some hf
    exact ⟨h1, by simpa using h2⟩

theorem ringOf_eq {h : Heap N} {A : Rings N} (hR : Rep h A) {l : List (Node N)} (hl : l ∈ A)
    {x : Node N} (hx : x ∈ l) : ringOf A x = l :=
  rep_unique hR (ringOf_spec hR x).1 hl (ringOf_spec hR x).2 hx

theorem rep_step1 {h h' : Heap N} {A : Rings N} (hR : Rep h A) {l : List (Node N)} (hl : l ∈ A)
    (ls : Rings N) (hls : ∀ k ∈ ls, Ring h' k) (hp : ls.flatten.Perm l)
    (hf : ∀ y, y ∉ l → h'.next y = h.next y ∧ h'.prev y = h.prev y ∧ h'.root y = h.root y) :
    Rep h' (ls ++ A.erase l) := by
  have hpA : A.flatten.Perm (ls ++ A.erase l).flatten := by
    have h1 : A.Perm (l :: A.erase l) := List.perm_cons_erase hl
    refine h1.flatten.trans ?_
    rw [List.flatten_cons, List.flatten_append]
    exact hp.symm.append_right _
  refine ⟨?_, (hpA.nodup_iff).mp hR.2.1, fun x => (hpA.mem_iff).mp (hR.2.2 x)⟩
  intro k hk
  rcases List.mem_append.mp hk with hk | hk
  · exact hls k hk
  · refine ring_frame h h' k ?_ (hR.1 k (List.mem_of_mem_erase hk))
    intro y hy
    exact hf y (fun hyl => rep_disjoint hR hl hk y hyl hy)

theorem rep_step2 {h h' : Heap N} {A : Rings N} (hR : Rep h A) {l k : List (Node N)} (hl : l ∈ A)
    (hk : k ∈ A) (hlk : l ≠ k) (ls : Rings N) (hls : ∀ k ∈ ls, Ring h' k)
    (hp : ls.flatten.Perm (l ++ k))
    (hf : ∀ y, y ∉ l → y ∉ k →
      h'.next y = h.next y ∧ h'.prev y = h.prev y ∧ h'.root y = h.root y) :
    Rep h' (ls ++ (A.erase l).erase k) := by
  have hkl : k ∈ A.erase l := (List.mem_erase_of_ne (fun h => hlk h.symm)).mpr hk
  have hpA : A.flatten.Perm (ls ++ (A.erase l).erase k).flatten := by
    have h1 : A.Perm (l :: A.erase l) := List.perm_cons_erase hl
    have h2 : (A.erase l).Perm (k :: (A.erase l).erase k) := List.perm_cons_erase hkl
    refine (h1.trans (h2.cons l)).flatten.trans ?_
    rw [List.flatten_cons, List.flatten_cons, List.flatten_append, ← List.append_assoc]
    exact hp.symm.append_right _
  have hnd := (hpA.nodup_iff).mp hR.2.1
  refine ⟨?_, hnd, fun x => (hpA.mem_iff).mp (hR.2.2 x)⟩
  intro m hm
  rcases List.mem_append.mp hm with hm | hm
  · exact hls m hm
  · have hmA : m ∈ A.erase l := List.mem_of_mem_erase hm
    refine ring_frame h h' m ?_ (hR.1 m (List.mem_of_mem_erase hmA))
    intro y hy
    refine hf y (fun hyl => rep_disjoint hR hl hmA y hyl hy) ?_
    intro hyk
    rw [List.flatten_append, List.nodup_append] at hnd
    refine hnd.2.2 y ((hp.mem_iff).mpr (by simp [hyk])) y
      (List.mem_flatten.mpr ⟨m, hm, hy⟩) rfl

theorem rep_ring {h : Heap N} {A : Rings N} (hR : Rep h A) (x : Node N) : Ring h (ringOf A x) :=
  hR.1 _ (ringOf_spec hR x).1

theorem rep_root {h : Heap N} {A : Rings N} (hR : Rep h A) (x : Node N) :
    h.root x = specRoot A x := by
  have := ring_root (rep_ring hR x) x (ringOf_spec hR x).2
  unfold specRoot
  rw [List.headD_eq_head?_getD, this]
  rfl

theorem remove_rep (h : Heap N) (A : Rings N) (x : Node N) (hR : Rep h A) :
    ∃ h', remove h x = some h' ∧ Rep h' (specRemove A x) := by
  obtain ⟨hl, hx⟩ := ringOf_spec hR x
  unfold specRemove
  by_cases hs : ringOf A x = [x]
  · simp only [hs, if_true]
    have := hR.1 _ hl
    rw [hs] at this
    exact ⟨h, remove_single h x this, hR⟩
  · simp only [hs, if_false]
    obtain ⟨h', h1, h2, h3, h4⟩ := remove_spec h _ x (hR.1 _ hl) hx hs
    refine ⟨h', h1, ?_⟩
    refine rep_step1 (ls := [(ringOf A x).erase x, [x]]) hR hl ?_ ?_ h4
    · intro k hk
      simp only [List.mem_cons, List.not_mem_nil, or_false] at hk
      rcases hk with rfl | rfl
      · exact h2
      · exact h3
    · simp only [List.flatten_cons, List.flatten_nil, List.append_nil]
      exact (List.perm_append_singleton _ _).trans (List.perm_cons_erase hx).symm

theorem mem_specRemove {h : Heap N} {A : Rings N} (hR : Rep h A) (x : Node N) :
    [x] ∈ specRemove A x := by
  unfold specRemove
  by_cases hs : ringOf A x = [x]
  · simp only [hs, if_true]
    have := (ringOf_spec hR x).1
    rwa [hs] at this
  · simp [hs]

theorem insertAfter_perm (p : Node N) (w l : List (Node N)) (hp : p ∈ l) :
    (insertAfter p w l).Perm (l ++ w) := by
  obtain ⟨a, b, rfl, hpa⟩ := List.eq_append_cons_of_mem hp
  rw [insertAfter_eq p w b a hpa, List.append_assoc, List.cons_append]
  exact ((List.perm_append_comm).cons p).append_left a

theorem insert_rep (h : Heap N) (A : Rings N) (p n : Node N) (hR : Rep h A) :
    ∃ h', insert h p n = some h' ∧ Rep h' (specInsert A p n) := by
  obtain ⟨h1, hrem, hR1⟩ := remove_rep h A n hR
  have hn := mem_specRemove hR n
  rw [insert_eq, hrem, Option.bind_some]
  refine ⟨_, rfl, ?_⟩
  unfold specInsert
  by_cases hpn : p = n
  · subst hpn
    simp only [if_true]
    have hr := hR1.1 _ hn
    have hnn : h1.next p = p := hr.2.1.1
    have hnp : h1.prev p = p := hr.2.1.2
    have : link h1 p p = h1 := by
      have e1 : upd h1.next p p = h1.next := by
        funext y; unfold upd; split
        · rename_i h; rw [h, hnn]
        · rfl
      have e2 : upd h1.prev p p = h1.prev := by
        funext y; unfold upd; split
        · rename_i h; rw [h, hnp]
        · rfl
      have e3 : upd h1.root p (h1.root p) = h1.root := by
        funext y; unfold upd; split
        · rename_i h; rw [h]
        · rfl
      simp only [link, Heap.setNext, Heap.setPrev, Heap.setRoot, hnn, e1, e2, e3]
    rw [this]
    exact hR1
  · simp only [hpn, if_false]
    obtain ⟨hl, hp⟩ := ringOf_spec hR1 p
    have hne : ringOf (specRemove A n) p ≠ [n] := by
      intro he
      rw [he] at hp
      simp at hp
      exact hpn hp
    have hnl : n ∉ ringOf (specRemove A n) p := by
      intro hm
      exact hne (rep_unique hR1 hl hn hm (by simp))
    obtain ⟨h2, h3⟩ := link_spec h1 _ p n (hR1.1 _ hl) hp (hR1.1 _ hn) hnl
    refine rep_step2 (ls := [insertAfter p [n] (ringOf (specRemove A n) p)]) hR1 hl hn hne ?_ ?_ ?_
    · intro k hk
      simp only [List.mem_singleton] at hk
      subst hk
      exact h2
    · simp only [List.flatten_cons, List.flatten_nil, List.append_nil]
      exact insertAfter_perm p [n] _ hp
    · intro y hy hyn
      exact h3 y hy (fun he => hyn (by simp [he]))

theorem reroot_rep (h : Heap N) (A : Rings N) (x : Node N) (hR : Rep h A) :
    ∃ h', rerootAll h x = some h' ∧ Rep h' (specReroot A x) := by
  obtain ⟨hl, hx⟩ := ringOf_spec hR x
  obtain ⟨h', h1, h2, h3⟩ := rerootAll_spec h _ x (hR.1 _ hl) hx
  refine ⟨h', h1, ?_⟩
  refine rep_step1 (ls := [rotateTo x (ringOf A x)]) hR hl ?_ ?_ h3
  · intro k hk
    simp only [List.mem_singleton] at hk
    subst hk
    exact h2
  · simp only [List.flatten_cons, List.flatten_nil, List.append_nil]
    exact rotateTo_perm x _

theorem splice_rep (h : Heap N) (A : Rings N) (p f : Node N) (hR : Rep h A) :
    ∃ h', splice h p f = some h' ∧ Rep h' (specSplice A p f) := by
  obtain ⟨hl, hp⟩ := ringOf_spec hR p
  obtain ⟨hk, hf⟩ := ringOf_spec hR f
  unfold specSplice
  by_cases he : ringOf A p = ringOf A f
  · simp only [he, if_true]
    have : h.root f = h.root p := by
      have h1 := ring_root (hR.1 _ hl) p hp
      have h2 := ring_root (hR.1 _ hk) f hf
      rw [he, h2] at h1
      exact Option.some.inj h1
    refine ⟨h, ?_, hR⟩
    unfold splice
    rw [if_pos this]
  · simp only [he, if_false]
    have hdis : ∀ y ∈ ringOf A p, y ∉ ringOf A f := fun y hy hm =>
      he (rep_unique hR hl hk hy hm)
    obtain ⟨h', h1, h2, h3⟩ := splice_spec h _ _ p f (hR.1 _ hl) hp (hR.1 _ hk) hf hdis
    refine ⟨h', h1, ?_⟩
    refine rep_step2 (ls := [insertAfter p (rotateTo f (ringOf A f)) (ringOf A p)]) hR hl hk he
      ?_ ?_ h3
    · intro m hm
      simp only [List.mem_singleton] at hm
      subst hm
      exact h2
    · simp only [List.flatten_cons, List.flatten_nil, List.append_nil]
      exact (insertAfter_perm p _ _ hp).trans ((rotateTo_perm f _).append_left _)

theorem cut_rep (h : Heap N) (A : Rings N) (f t : Node N) (hR : Rep h A) :
    ∃ h', cut h f t = some h' ∧ Rep h' (specCut A f t) := by
  obtain ⟨hl, hf⟩ := ringOf_spec hR f
  obtain ⟨hk, ht⟩ := ringOf_spec hR t
  have hr := hR.1 _ hl
  have hrf := ring_root hr f hf
  unfold specCut
  by_cases htl : t ∈ ringOf A f
  · simp only [htl, not_true_eq_false, if_false]
    have hrt := ring_root hr t htl
    have hroots : h.root f = h.root t := by
      rw [hrf] at hrt; exact Option.some.inj hrt
    obtain ⟨a, b, hab, hfa⟩ := List.eq_append_cons_of_mem hf
    have hrot : rotateTo f (ringOf A f) = f :: (b ++ a) := by rw [hab, rotateTo_eq f a b hfa]
    have hcyc : Path h f (b ++ a) f := cyc_at (by rw [← hab]; exact ring_cyc hr)
    have hnd : (f :: (b ++ a)).Nodup := nodup_rotate (by rw [← hab]; exact ring_nodup hr)
    have htw : t ∈ f :: (b ++ a) := mem_rotate.mpr (by rw [← hab]; exact htl)
    obtain ⟨u, v, huv, htu⟩ := List.eq_append_cons_of_mem htw
    rw [hrot, huv, (takeDrop_eq t u v htu).1, (takeDrop_eq t u v htu).2, List.tail_cons]
    have hprev : h.prev f = (f :: (b ++ a)).getLast (by simp) := path_prev_last h _ _ _ hcyc
    cases v with
    | nil =>
      simp only [if_true]
      refine ⟨h, ?_, hR⟩
      unfold cut
      rw [if_neg (by simpa using hroots), if_pos]
      rw [hprev]
      simp [huv]
    | cons c e =>
      simp only [List.cons_ne_nil, if_false]
      have hperm : (u ++ [t] ++ (if specRoot A f ∈ u ++ [t] then c :: e
          else rotateTo (specRoot A f) (c :: e))).Perm (ringOf A f) := by
        have h1 : (if specRoot A f ∈ u ++ [t] then c :: e
          else rotateTo (specRoot A f) (c :: e)).Perm (c :: e) := by
          split
          · exact List.Perm.refl _
          · exact rotateTo_perm _ _
        refine (h1.append_left _).trans ?_
        rw [List.append_assoc, List.singleton_append, ← huv, hab]
        exact (List.perm_append_comm.cons f).trans List.perm_middle.symm
      suffices hs : ∃ h', cut h f t = some h' ∧ Ring h' (u ++ [t]) ∧
          Ring h' (if specRoot A f ∈ u ++ [t] then c :: e
            else rotateTo (specRoot A f) (c :: e)) ∧
          ∀ y, y ∉ ringOf A f → h'.next y = h.next y ∧ h'.prev y = h.prev y ∧
            h'.root y = h.root y by
        obtain ⟨h', h1, h2, h3, h4⟩ := hs
        refine ⟨h', h1, ?_⟩
        refine rep_step1 (ls := [u ++ [t], if specRoot A f ∈ u ++ [t] then c :: e
          else rotateTo (specRoot A f) (c :: e)]) hR hl ?_ ?_ h4
        · intro k hk
          rw [List.mem_cons, List.mem_singleton] at hk
          rcases hk with rfl | rfl
          · exact h2
          · exact h3
        · rw [List.flatten_cons, List.flatten_cons, List.flatten_nil, List.append_nil]
          exact hperm
      cases u with
      | nil =>
        -- a single node
        simp only [List.nil_append, List.cons.injEq] at huv
        obtain ⟨hft, hba⟩ := huv
        subst hft
        have hne : ringOf A f ≠ [f] := by
          rw [hab]
          intro he
          have : (a ++ f :: b).length = 1 := by rw [he]; rfl
          have h2 : (b ++ a).length = e.length + 1 := by rw [hba]; rfl
          simp at this h2
          omega
        obtain ⟨h', h1, h2, h3, h4⟩ := remove_spec h _ f hr hf hne
        refine ⟨h', ?_, h3, ?_, h4⟩
        · unfold cut
          rw [if_neg (by simp), if_neg, if_pos rfl]
          · exact h1
          · intro he
            have := path_prev_mem h e c f (by rw [hba] at hcyc; exact hcyc.2)
            rw [he] at this
            rw [hba] at hnd
            exact (List.nodup_cons.mp hnd).1 this
        · have herase : (ringOf A f).erase f = a ++ b := by
            rw [hab, List.erase_append_right _ hfa, List.erase_cons_head]
          rw [herase] at h2
          have hroot := rep_root hR f
          cases a with
          | nil =>
            have : specRoot A f = f := by
              unfold specRoot; rw [hab]; rfl
            rw [this, if_pos (by simp), ← hba]
            simpa using h2
          | cons r a =>
            have hsr : specRoot A f = r := by
              unfold specRoot; rw [hab]; rfl
            have hrf' : r ≠ f := fun he => hfa (by simp [he])
            rw [hsr, if_neg (by simpa using hrf'), ← hba, rotateTo_eq r b a]
            · simpa using h2
            · intro hrb
              have := ring_nodup hr
              rw [hab] at this
              simp only [List.cons_append, List.nodup_cons] at this
              exact this.1 (by simp [hrb])
      | cons f' s =>
        simp only [List.cons_append, List.cons.injEq] at huv
        obtain ⟨hff, hba⟩ := huv
        subst hff
        rw [hba] at hrot
        obtain ⟨h', h1, h2, h3, h4⟩ := cut_spec h _ f t c s e hr hf hrot
        refine ⟨h', h1, h2, ?_, h4⟩
        rw [← rep_root hR f]
        exact h3
  · simp only [htl, not_false_eq_true, if_true]
    refine ⟨h, ?_, hR⟩
    unfold cut
    rw [if_pos]
    intro he
    have h1 : h.root f ∈ ringOf A f := List.mem_of_mem_head? hrf
    have h2 : h.root t ∈ ringOf A t := List.mem_of_mem_head? (ring_root (hR.1 _ hk) t ht)
    rw [← he] at h2
    have := rep_unique hR hl hk h1 h2
    exact htl (this ▸ ht)

theorem fresh_rep (N : Nat) : Rep (fresh N) (specFresh N) := by
  refine ⟨?_, ?_, ?_⟩
  · intro l hl
    simp only [specFresh, List.mem_map] at hl
    obtain ⟨x, _, rfl⟩ := hl
    refine ⟨by simp, ⟨rfl, rfl⟩, ?_⟩
    intro y hy
    simp only [List.mem_singleton] at hy
    rw [hy]; rfl
  · have : (specFresh N).flatten = List.finRange N := by
      unfold specFresh
      rw [← List.flatMap_def]
      simp
    rw [this]
    exact List.nodup_finRange N
  · intro x
    simp [specFresh, List.mem_flatten]

/-- The head and the tail, and whether the root is alone. -/
theorem rep_head_tail {h : Heap N} {A : Rings N} (hR : Rep h A) (x : Node N) :
    head h x = specHead A x ∧ tail h x = specTail A x ∧
    h.prev (h.root x) = (ringOf A x).getLastD x := by
  have hx := (ringOf_spec hR x).2
  have hr := rep_ring hR x
  have hroot := ring_root hr x hx
  unfold head tail specHead specTail isEmpty
  cases hl : ringOf A x with
  | nil => rw [hl] at hx; simp at hx
  | cons r l =>
    rw [hl] at hr hroot
    simp only [List.head?_cons, Option.some.injEq] at hroot
    rw [← hroot]
    obtain ⟨hnd, hp, _⟩ := hr
    have hlast := path_prev_last h l r r hp
    cases l with
    | nil =>
      have hn : h.next r = r := hp.1
      have hp' : h.prev r = r := hp.2
      simp [hn, hp']
    | cons c m =>
      have hn : h.next r = c := hp.1.1
      have hrc : r ≠ c := by rintro rfl; simp at hnd
      have hlast' : h.prev r = (c :: m).getLast (by simp) := by
        rw [hlast, List.getLast_cons (by simp)]
      refine ⟨?_, ?_, ?_⟩
      · simp [hn, hrc]
      · simp only [hn, hrc, decide_false, List.tail_cons]
        rw [hlast']
        simp [List.getLast?_eq_some_getLast]
      · rw [hlast']
        simp [List.getLastD_eq_getLast?, List.getLast?_eq_some_getLast]

end Diminuto.DList
