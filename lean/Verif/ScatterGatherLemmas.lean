import Verif.ScatterGatherSpec
import Verif.WellLemmas

/-!
# Lemmas: the lists of Scatter/Gather
-/

namespace Diminuto.ScatterGather

open Diminuto.DList Diminuto.Well

variable {N : Nat}

/-- The heap holds these lists: every node that is on no list is the root of its own, and a node that is on
a list is not the root of one. -/
structure Holds (h : Heap N) (q : Fin N → List (Fin N)) : Prop where
  rep : ∃ A, Rep h A ∧ ∀ r, (∀ p, r ∉ q p) → r :: q r ∈ A
  leaf : ∀ p, ∀ n ∈ q p, q n = []

theorem Holds.loose {h : Heap N} {q : Fin N → List (Fin N)} (hh : Holds h q) {r : Fin N} (hr : q r ≠ []) :
    ∀ p, r ∉ q p := fun p hm => hr (hh.leaf p r hm)

theorem Holds.nodup {h : Heap N} {q : Fin N → List (Fin N)} (hh : Holds h q) (r : Fin N) : (r :: q r).Nodup := by
  by_cases hr : q r = []
  · rw [hr]; simp
  · obtain ⟨A, hR, hA⟩ := hh.rep
    exact (hR.1 _ (hA r (hh.loose hr))).1

theorem Holds.uniq {h : Heap N} {q : Fin N → List (Fin N)} (hh : Holds h q) {n p p' : Fin N} (h1 : n ∈ q p)
    (h2 : n ∈ q p') : p = p' := by
  obtain ⟨A, hR, hA⟩ := hh.rep
  have l1 := hA p (hh.loose (List.ne_nil_of_mem h1))
  have l2 := hA p' (hh.loose (List.ne_nil_of_mem h2))
  have := rep_unique hR l1 l2 (List.mem_cons_of_mem _ h1) (List.mem_cons_of_mem _ h2)
  exact (List.cons.inj this).1

theorem remove_alone {h : Heap N} {A : Rings N} (hR : Rep h A) {n : Fin N} (hn : [n] ∈ A) :
    DList.remove h n = some h := by
  have e : h.next n = n := (hR.1 _ hn).2.1.1
  unfold DList.remove
  rw [if_neg (by simp [e])]

theorem without_of_not_mem {q : Fin N → List (Fin N)} {n : Fin N} (hn : ∀ p, n ∉ q p) : without q n = q := by
  funext p
  exact List.erase_of_not_mem (hn p)

theorem not_mem_without {h : Heap N} {q : Fin N → List (Fin N)} (hh : Holds h q) (n p : Fin N) :
    n ∉ without q n p := by
  have := (hh.nodup p)
  rw [List.nodup_cons] at this
  unfold without
  rw [this.2.mem_erase_iff]
  simp

theorem mem_without {h : Heap N} {q : Fin N → List (Fin N)} (hh : Holds h q) (n p x : Fin N) :
    x ∈ without q n p ↔ x ≠ n ∧ x ∈ q p := by
  have := (hh.nodup p)
  rw [List.nodup_cons] at this
  unfold without
  rw [this.2.mem_erase_iff]

theorem remove_holds {h : Heap N} {q : Fin N → List (Fin N)} (hh : Holds h q) {n : Fin N} (hn : q n = []) :
    ∃ h', DList.remove h n = some h' ∧ Holds h' (without q n) := by
  obtain ⟨A, hR, hA⟩ := hh.rep
  by_cases hl : ∀ p, n ∉ q p
  · have := hA n hl
    rw [hn] at this
    exact ⟨h, remove_alone hR this, by rw [without_of_not_mem hl]; exact hh⟩
  · obtain ⟨p, hp⟩ : ∃ p, n ∈ q p := Classical.byContradiction fun hc => hl fun p hp => hc ⟨p, hp⟩
    obtain ⟨h1, e1, hR1⟩ := remove_rep h A n hR
    refine ⟨h1, e1, ⟨_, hR1, ?_⟩, ?_⟩
    · have hpl := hh.loose (List.ne_nil_of_mem hp)
      have hpA := hA p hpl
      have hne : p ≠ n := by rintro rfl; exact hpl p hp
      have e : specRemove A n = (p :: (q p).erase n) :: [n] :: A.erase (p :: q p) := by
        unfold specRemove
        rw [ringOf_eq hR hpA (List.mem_cons_of_mem _ hp)]
        simp only []
        rw [if_neg, List.erase_cons_tail (by simpa using hne)]
        intro hc
        exact hne (List.cons.inj hc).1
      intro r hr
      by_cases hrn : r = n
      · subst hrn
        unfold without
        rw [hn, e]
        simp
      · have hrl : ∀ p', r ∉ q p' := fun p' hm => hr p' ((mem_without hh n p' r).2 ⟨hrn, hm⟩)
        by_cases hrp : r = p
        · subst hrp
          rw [e]
          simp [without]
        · have : n ∉ q r := fun hm => hrp (hh.uniq hm hp)
          unfold without
          rw [List.erase_of_not_mem this]
          apply ringOf_specRemove hR n (hA r hrl)
          simp only [List.mem_cons, not_or]
          exact ⟨fun hc => hrn hc.symm, this⟩
    · intro p' x hx
      have := hh.leaf p' x ((mem_without hh n p' x).1 hx).2
      unfold without
      rw [this]
      rfl

theorem insertAfter_cons_head (o n r : Fin N) (l : List (Fin N)) :
    insertAfter o [n] (r :: l) = r :: (insertAfter o [n] (r :: l)).tail := by
  unfold insertAfter
  split <;> rfl

theorem mem_insertAfter_tail {o n r : Fin N} {l : List (Fin N)} (ho : o ∈ r :: l) (hnd : (n :: r :: l).Nodup) (x : Fin N) :
    x ∈ (insertAfter o [n] (r :: l)).tail ↔ x = n ∨ x ∈ l := by
  have hp := insertAfter_perm o [n] (r :: l) ho
  have hr : r ∉ (insertAfter o [n] (r :: l)).tail := by
    have : (insertAfter o [n] (r :: l)).Nodup := by
      rw [hp.nodup_iff, List.perm_append_comm.nodup_iff]
      exact hnd
    rw [insertAfter_cons_head] at this
    exact (List.nodup_cons.1 this).1
  have hm := hp.mem_iff (a := x)
  rw [insertAfter_cons_head] at hm
  simp only [List.mem_cons, List.mem_append, List.not_mem_nil, or_false] at hm
  have hrl : r ∉ l := (List.nodup_cons.1 (List.nodup_cons.1 hnd).2).1
  have hrn : r ≠ n := by rintro rfl; simp at hnd
  by_cases hx : x = r
  · subst hx
    simp [hr, hrl, hrn]
  · simp only [hx, false_or] at hm
    rw [hm]
    exact Or.comm

theorem insert_loose {h : Heap N} {q : Fin N → List (Fin N)} (hh : Holds h q) {r o n : Fin N}
    (hr : ∀ p, r ∉ q p) (ho : o ∈ r :: q r) (hn : ∀ p, n ∉ q p) (hq : q n = []) (hnr : n ≠ r) :
    ∃ h', DList.insert h o n = some h' ∧ Holds h' (set q r (insertAfter o [n] (r :: q r)).tail) := by
  obtain ⟨A, hR, hA⟩ := hh.rep
  obtain ⟨h1, e1, hR1⟩ := insert_rep h A o n hR
  have hrA := hA r hr
  have hnl : n ∉ r :: q r := by
    simp only [List.mem_cons, not_or]
    exact ⟨hnr, hn r⟩
  have hnd : (n :: r :: q r).Nodup := List.nodup_cons.2 ⟨hnl, hh.nodup r⟩
  have hm := fun x => mem_insertAfter_tail (x := x) ho hnd
  refine ⟨h1, e1, ⟨_, hR1, ?_⟩, ?_⟩
  · intro x hx
    by_cases hxr : x = r
    · subst hxr
      unfold set
      rw [if_pos rfl, ← insertAfter_cons_head]
      exact mem_specInsert hR o n hrA ho hnl
    · have hxn : x ≠ n := by
        rintro rfl
        have := hx r
        unfold set at this
        rw [if_pos rfl, hm] at this
        simp at this
      have hxl : ∀ p, x ∉ q p := by
        intro p hp
        by_cases hpr : p = r
        · subst hpr
          have := hx p
          unfold set at this
          rw [if_pos rfl, hm] at this
          exact this (Or.inr hp)
        · have := hx p
          unfold set at this
          rw [if_neg hpr] at this
          exact this hp
      have hxA := hA x hxl
      unfold set
      rw [if_neg hxr]
      apply specInsert_other hR o n hxA
      · exact disjoint_lists hR hrA hxA (fun hc => hxr (List.cons.inj hc).1.symm) ho
      · simp only [List.mem_cons, not_or]
        exact ⟨fun hc => hxn hc.symm, hn x⟩
  · intro p x hx
    have hx' : x = n ∨ ∃ p, x ∈ q p := by
      unfold set at hx
      split at hx
      · rw [hm] at hx
        rcases hx with hx | hx
        · exact Or.inl hx
        · exact Or.inr ⟨r, hx⟩
      · exact Or.inr ⟨p, hx⟩
    have hxr : x ≠ r := by
      rintro rfl
      rcases hx' with hx' | ⟨p, hx'⟩
      · exact hnr hx'.symm
      · exact hr p hx'
    unfold set
    rw [if_neg hxr]
    rcases hx' with rfl | ⟨p, hx'⟩
    · exact hq
    · exact hh.leaf p x hx'

/-- Inserting a node that may be on a list. -/
theorem insert_holds {h : Heap N} {q : Fin N → List (Fin N)} (hh : Holds h q) {r o n : Fin N}
    (hr : ∀ p, r ∉ q p) (ho : o ∈ r :: without q n r) (hq : q n = []) (hnr : n ≠ r) :
    ∃ h', DList.insert h o n = some h' ∧
      Holds h' (set (without q n) r (insertAfter o [n] (r :: without q n r)).tail) := by
  obtain ⟨h1, e1, hh1⟩ := remove_holds hh hq
  have hn := not_mem_without hh n
  obtain ⟨h2, e2, hh2⟩ := insert_loose hh1 (r := r) (fun p hp => hr p ((mem_without hh n p r).1 hp).2) ho hn
    (by unfold without; rw [hq]; rfl) hnr
  refine ⟨h2, ?_, hh2⟩
  rw [← e2]
  obtain ⟨A1, hR1, hA1⟩ := hh1.rep
  have hq1 : without q n n = [] := by unfold without; rw [hq]; rfl
  have := hA1 n hn
  rw [hq1] at this
  rw [insert_eq, insert_eq, e1, remove_alone hR1 this]

theorem without_eq {q : Fin N → List (Fin N)} {n p : Fin N} (hn : n ∉ q p) : without q n p = q p :=
  List.erase_of_not_mem hn

theorem enqueue_holds {h : Heap N} {q : Fin N → List (Fin N)} (hh : Holds h q) {r n : Fin N}
    (hr : ∀ p, r ∉ q p) (hn : n ∉ q r) (hq : q n = []) (hnr : n ≠ r) :
    ∃ h', DList.enqueue h r n = some h' ∧ Holds h' (set (without q n) r (q r ++ [n])) := by
  obtain ⟨A, hR, hA⟩ := hh.rep
  have hrA := hA r hr
  obtain ⟨f1, f2, f3, f4⟩ := not_empty_of hR hrA
  obtain ⟨h', e, i⟩ := insert_holds hh (r := r) (o := (r :: q r).getLast (by simp)) (n := n) hr
    (by rw [without_eq hn]; exact List.getLast_mem _) hq hnr
  rw [without_eq hn, insertAfter_last r n _ (hh.nodup r)] at i
  refine ⟨h', ?_, i⟩
  unfold DList.enqueue
  rw [f4, f3, e]

theorem push_holds {h : Heap N} {q : Fin N → List (Fin N)} (hh : Holds h q) {r n : Fin N}
    (hr : ∀ p, r ∉ q p) (hq : q n = []) (hnr : n ≠ r) :
    ∃ h', DList.push h r n = some h' ∧ Holds h' (set (without q n) r (n :: (q r).erase n)) := by
  obtain ⟨A, hR, hA⟩ := hh.rep
  obtain ⟨f1, f2, f3, f4⟩ := not_empty_of hR (hA r hr)
  obtain ⟨h', e, i⟩ := insert_holds hh (r := r) (o := r) (n := n) hr (by simp) hq hnr
  refine ⟨h', ?_, ?_⟩
  · unfold DList.push
    rw [f4, e]
  · unfold insertAfter at i
    rw [if_pos rfl] at i
    exact i

theorem set_without_self (q : Fin N → List (Fin N)) {h : Heap N} (hh : Holds h q) {p n : Fin N} {l : List (Fin N)}
    (hp : q p = n :: l) : without q n = set q p l := by
  funext x
  unfold without set
  by_cases hx : x = p
  · subst hx
    rw [if_pos rfl, hp]
    simp
  · rw [if_neg hx]
    apply List.erase_of_not_mem
    intro hm
    exact hx (hh.uniq hm (by rw [hp]; simp))

theorem head_holds {h : Heap N} {q : Fin N → List (Fin N)} (hh : Holds h q) {r : Fin N} (hr : ∀ p, r ∉ q p) :
    DList.head h r = (q r).head? := by
  obtain ⟨A, hR, hA⟩ := hh.rep
  obtain ⟨f1, f2, f3, f4⟩ := not_empty_of hR (hA r hr)
  unfold DList.head
  rw [f4]
  cases hq : q r with
  | nil => rw [if_pos (f1.2 hq)]; rfl
  | cons n l =>
    rw [if_neg (by rw [f1, hq]; simp), f2, hq]
    rfl

theorem pop_holds {h : Heap N} {q : Fin N → List (Fin N)} (hh : Holds h q) {p n : Fin N} {l : List (Fin N)}
    (hp : q p = n :: l) : ∃ h', DList.pop h p = some (h', some n) ∧ Holds h' (set q p l) := by
  have hl := hh.loose (r := p) (by rw [hp]; simp)
  have hd := head_holds hh hl
  obtain ⟨h', e, i⟩ := remove_holds hh (n := n) (hh.leaf p n (by rw [hp]; simp))
  rw [set_without_self q hh hp] at i
  refine ⟨h', ?_, i⟩
  rw [hp] at hd
  unfold DList.head at hd
  unfold DList.pop
  split at hd
  · simp at hd
  · rename_i hc
    simp only [List.head?_cons, Option.some.injEq] at hd
    rw [if_neg hc]
    simp only [hd, e, Option.bind_some]

theorem pop_empty {h : Heap N} {q : Fin N → List (Fin N)} (hh : Holds h q) {p : Fin N} (hl : ∀ p', p ∉ q p')
    (hp : q p = []) : DList.pop h p = some (h, none) := by
  have hd := head_holds hh hl
  rw [hp] at hd
  unfold DList.head at hd
  unfold DList.pop
  split at hd
  · rename_i hc
    rw [if_pos hc]
  · simp at hd

theorem init_holds {h : Heap N} {q : Fin N → List (Fin N)} (hh : Holds h q) {n : Fin N} (hn : ∀ p, n ∉ q p)
    (hq : q n = []) : DList.init h n = h := by
  obtain ⟨A, hR, hA⟩ := hh.rep
  have := hA n hn
  rw [hq] at this
  exact init_single hR this

theorem walk_path (h : Heap N) (r : Fin N) (l : List (Fin N)) : ∀ (a : Fin N) (fuel : Nat), Path h a l r →
    h.root a = r → (∀ y ∈ l, h.root y = r) → r ∉ l → l.length ≤ fuel → walk h fuel (segmentNext h a) = some l := by
  induction l with
  | nil =>
    intro a fuel hp ha _ _ _
    have : h.next a = r := hp.1
    unfold segmentNext
    rw [if_pos (by rw [this, ha])]
    cases fuel <;> rfl
  | cons x l ih =>
    intro a fuel hp ha hl hr hf
    obtain ⟨hx, hp⟩ := hp
    have hx : h.next a = x := hx.1
    obtain ⟨fuel, rfl⟩ : ∃ k, fuel = k + 1 := ⟨fuel - 1, by simp at hf; omega⟩
    simp only [List.mem_cons, not_or] at hr
    unfold segmentNext
    rw [if_neg (by rw [hx, ha]; exact fun hc => hr.1 hc.symm), hx]
    unfold walk
    rw [ih x fuel hp (hl x (by simp)) (fun y hy => hl y (by simp [hy])) hr.2 (by simp at hf; omega)]
    rfl

theorem segments_holds {s : State N} {q : Fin N → List (Fin N)} (hh : Holds s.heap q) {r : Fin N}
    (hr : ∀ p, r ∉ q p) : segments s r = some (q r) := by
  obtain ⟨A, hR, hA⟩ := hh.rep
  have hring := hR.1 _ (hA r hr)
  have hhd := head_holds hh hr
  unfold segments
  rw [hhd]
  obtain ⟨h1, h2, h3⟩ := hring
  have hlen := nodup_length_le _ h1
  have hw := walk_path s.heap r (q r) r N h2 (h3 r (by simp)) (fun y hy => h3 y (by simp [hy]))
    (List.nodup_cons.1 h1).1 (by simp at hlen; omega)
  have : segmentNext s.heap r = (q r).head? := by
    unfold segmentNext
    rw [h3 r (by simp)]
    cases hq : q r with
    | nil =>
      rw [hq] at h2
      rw [if_pos h2.1]
      rfl
    | cons x l =>
      rw [hq] at h2 h1
      have : s.heap.next r = x := h2.1.1
      rw [if_neg (by rw [this]; rintro rfl; simp at h1), this]
      rfl
  rw [← this]
  exact hw

theorem splice_holds {h : Heap N} {q : Fin N → List (Fin N)} (hh : Holds h q) {r o n : Fin N}
    (hr : ∀ p, r ∉ q p) (ho : o ∈ r :: q r) (hn : ∀ p, n ∉ q p) (hq : q n = []) (hnr : n ≠ r) :
    ∃ h', DList.splice h o n = some h' ∧ Holds h' (set q r (insertAfter o [n] (r :: q r)).tail) := by
  obtain ⟨h', e, i⟩ := insert_loose hh hr ho hn hq hnr
  refine ⟨h', ?_, i⟩
  obtain ⟨A, hR, hA⟩ := hh.rep
  have h1 := hR.1 _ (hA r hr)
  have h2 := hA n hn
  rw [hq] at h2
  have h2 := hR.1 _ h2
  have e1 : h.root o = r := h1.2.2 o ho
  have e2 : h.root n = n := h2.2.2 n (by simp)
  have e3 : h.next n = n := h2.2.1.1
  unfold DList.splice
  rw [e1, e2, if_neg hnr, if_pos e3.symm, e]

theorem insertAfter_mid (o n r : Fin N) (a b : List (Fin N)) (hnd : (r :: (a ++ o :: b)).Nodup) :
    (insertAfter o [n] (r :: (a ++ o :: b))).tail = a ++ o :: n :: b := by
  have : o ∉ r :: a := by
    rw [← List.cons_append, List.nodup_append] at hnd
    exact fun hm => hnd.2.2 o hm o (by simp) rfl
  rw [← List.cons_append, insertAfter_eq o [n] b (r :: a) this]
  rfl

theorem replace_holds {h : Heap N} {q : Fin N → List (Fin N)} (hh : Holds h q) {r o n : Fin N} {a b : List (Fin N)}
    (hr : ∀ p, r ∉ q p) (ho : q r = a ++ o :: b) (hn : n ∉ q r) (hq : q n = []) (hnr : n ≠ r) :
    ∃ h', DList.replace h o n = some h' ∧ Holds h' (set (without q n) r (a ++ n :: b)) := by
  obtain ⟨h1, e1, i1⟩ := insert_holds hh (r := r) (o := o) (n := n) hr
    (by rw [without_eq hn, ho]; simp) hq hnr
  have hnd := hh.nodup r
  rw [without_eq hn, ho, insertAfter_mid o n r a b (by rw [← ho]; exact hnd)] at i1
  have hor : o ≠ r := by
    rintro rfl
    exact hr o (by rw [ho]; simp)
  have hoq : set (without q n) r (a ++ o :: n :: b) o = [] := by
    unfold set
    rw [if_neg hor]
    unfold without
    rw [hh.leaf r o (by rw [ho]; simp)]
    rfl
  obtain ⟨h2, e2, i2⟩ := remove_holds i1 hoq
  refine ⟨h2, ?_, ?_⟩
  · unfold DList.replace
    rw [e1, Option.bind_some, e2]
  · have : without (set (without q n) r (a ++ o :: n :: b)) o = set (without q n) r (a ++ n :: b) := by
      funext x
      by_cases hx : x = r
      · subst hx
        simp only [without, set, if_true]
        rw [List.erase_append_right]
        · simp
        · rw [ho] at hnd
          simp only [List.nodup_cons, List.nodup_append] at hnd
          exact fun hm => hnd.2.2.2 o hm o (by simp) rfl
      · have h3 : o ∉ set (without q n) r (a ++ o :: n :: b) x := by
          unfold set
          rw [if_neg hx, mem_without hh]
          exact fun hc => hx (hh.uniq hc.2 (by rw [ho]; simp))
        rw [without_eq h3]
        simp [set, hx]
    rw [this] at i2
    exact i2

theorem fresh_holds (N : Nat) : Holds (fresh N) fun _ => [] where
  rep := ⟨specFresh N, fresh_rep N, fun r _ => by simp [specFresh]⟩
  leaf _ _ h := by simp at h

end Diminuto.ScatterGather
