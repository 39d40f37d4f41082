import Verif.ListLemmas
import Verif.ListSpec

/-!
# Helper lemmas on the List: joining, splitting and rerooting rings
-/

namespace Diminuto.DList

variable {N : Nat}

theorem insertAfter_eq (p : Node N) (w b : List (Node N)) : ∀ a : List (Node N), p ∉ a →
    insertAfter p w (a ++ p :: b) = a ++ p :: (w ++ b) := by
  intro a
  induction a with
  | nil => intro _; simp [insertAfter]
  | cons y a ih =>
    intro h
    have h1 : y ≠ p := fun he => h (by simp [he])
    have h2 : p ∉ a := fun hm => h (List.mem_cons_of_mem _ hm)
    simp [insertAfter, h1, ih h2]

theorem takeDrop_eq (f : Node N) (a b : List (Node N)) (h : f ∉ a) :
    (a ++ f :: b).takeWhile (fun y => y != f) = a ∧
    (a ++ f :: b).dropWhile (fun y => y != f) = f :: b := by
  induction a with
  | nil => simp
  | cons y a ih =>
    have h1 : y ≠ f := fun he => h (by simp [he])
    have h2 : f ∉ a := fun hm => h (List.mem_cons_of_mem _ hm)
    simp [h1, ih h2]

theorem rotateTo_eq (f : Node N) (a b : List (Node N)) (h : f ∉ a) :
    rotateTo f (a ++ f :: b) = f :: (b ++ a) := by
  unfold rotateTo
  rw [(takeDrop_eq f a b h).1, (takeDrop_eq f a b h).2]
  rfl

theorem rotateTo_perm (f : Node N) (l : List (Node N)) : (rotateTo f l).Perm l := by
  unfold rotateTo
  refine List.perm_append_comm.trans ?_
  rw [List.takeWhile_append_dropWhile]

/-- Joining two cycles: `f :: w` is put after `p`. -/
theorem cyc_splice (h h' : Heap N) (p f : Node N) (m w : List (Node N))
    (hm : Path h p m p) (hw : Path h f w f) (hnd : (p :: m ++ f :: w).Nodup)
    (n1 : h'.next (h.prev f) = h.next p) (n2 : h'.next p = f)
    (n3 : ∀ y ∈ m ++ f :: w, y ≠ h.prev f → h'.next y = h.next y)
    (p1 : h'.prev (h.next p) = h.prev f) (p2 : h'.prev f = p)
    (p3 : ∀ y ∈ p :: m ++ w, y ≠ h.next p → h'.prev y = h.prev y) :
    Path h' p (f :: (w ++ m)) p := by
  have hz := path_prev_mem h w f f hw
  rw [List.nodup_append] at hnd
  obtain ⟨hnd1, hnd2, hdis⟩ := hnd
  have hfw : f ∉ w := (List.nodup_cons.mp hnd2).1
  refine ⟨⟨n2, p2⟩, ?_⟩
  cases m with
  | nil =>
    have hc : h.next p = p := hm.1
    rw [List.append_nil]
    apply path_retarget h h' f p w f hw hnd2
    · intro hpw
      exact hdis p (by simp) p (by simp [hpw]) rfl
    · rw [n1, hc]
    · rw [hc] at p1; exact p1
    · intro y hy hyz; exact n3 y (by simpa using hy) hyz
    · intro y hy
      apply p3 y (by simp [hy])
      rw [hc]
      rintro rfl
      exact hdis y (by simp) y (by simp [hy]) rfl
  | cons c m =>
    have hc : h.next p = c := hm.1.1
    rw [path_append]
    refine ⟨?_, ?_⟩
    · apply path_retarget h h' f c w f hw hnd2
      · intro hcw
        exact hdis c (by simp) c (by simp [hcw]) rfl
      · rw [n1, hc]
      · rw [hc] at p1; exact p1
      · intro y hy hyz; exact n3 y (by simp only [List.mem_append]; exact Or.inr hy) hyz
      · intro y hy
        apply p3 y (by simp [hy])
        rw [hc]
        rintro rfl
        exact hdis y (by simp) y (by simp [hy]) rfl
    · apply path_frame h h' m c p _ _ _ hm.2
      · intro y hy
        refine n3 y (by simp only [List.mem_append]; exact Or.inl hy) ?_
        intro he
        exact hdis y (List.mem_cons_of_mem _ hy) (h.prev f) hz he
      · intro y hy
        apply p3 y (by simp [hy])
        rw [hc]
        rintro rfl
        simp only [List.nodup_cons] at hnd1
        exact hnd1.2.1 hy
      · apply p3 p (by simp)
        rw [hc]
        rintro rfl
        simp at hnd1

/-- What `insert` does after removing the node. -/
def link (h : Heap N) (rootp nodep : Node N) : Heap N :=
  let h := h.setNext nodep (h.next rootp)
  let h := h.setPrev nodep rootp
  let h := h.setPrev (h.next rootp) nodep
  let h := h.setNext rootp nodep
  h.setRoot nodep (h.root rootp)

theorem insert_eq (h : Heap N) (p n : Node N) :
    insert h p n = (remove h n).bind fun h => some (link h p n) := rfl

theorem nodup_rotate {a b : List (Node N)} {x : Node N} (h : (a ++ x :: b).Nodup) :
    (x :: (b ++ a)).Nodup := by
  have : (x :: (b ++ a)).Perm (a ++ x :: b) :=
    (List.Perm.cons x (List.perm_append_comm)).trans (List.perm_middle.symm)
  exact this.nodup_iff.mpr h

/-- A cycle given back in its first order. -/
theorem ring_back {h : Heap N} {r : Node N} {a b : List (Node N)} {x : Node N}
    (hp : Path h x (b ++ a) x) (hnd : (a ++ x :: b).Nodup)
    (hh : (a ++ x :: b).head? = some r) (hroot : ∀ y ∈ a ++ x :: b, h.root y = r) :
    Ring h (a ++ x :: b) := by
  have hc : Cyc h (a ++ x :: b) := by
    have : Cyc h ((x :: b) ++ a) := by simpa [Cyc] using hp
    exact cyc_rotate h _ _ this
  cases a with
  | nil =>
    simp only [List.nil_append, List.head?_cons, Option.some.injEq] at hh
    subst hh
    exact ⟨hnd, hc, hroot⟩
  | cons z a =>
    simp only [List.cons_append, List.head?_cons, Option.some.injEq] at hh
    subst hh
    exact ⟨hnd, hc, hroot⟩

theorem link_spec (h : Heap N) (l : List (Node N)) (p n : Node N) (hr : Ring h l) (hp : p ∈ l)
    (hn : Ring h [n]) (hnl : n ∉ l) :
    Ring (link h p n) (insertAfter p [n] l) ∧
      ∀ y, y ∉ l → y ≠ n → (link h p n).next y = h.next y ∧ (link h p n).prev y = h.prev y ∧
        (link h p n).root y = h.root y := by
  obtain ⟨a, b, rfl, hpa⟩ := List.eq_append_cons_of_mem hp
  have hnd := ring_nodup hr
  have hndr := nodup_rotate hnd
  have hcyc := cyc_at (ring_cyc hr)
  have hpn : p ≠ n := fun he => hnl (he ▸ hp)
  have hnn : h.next n = n := hn.2.1.1
  have hnp : h.prev n = n := hn.2.1.2
  have hcm : h.next p ∈ p :: (b ++ a) := by
    cases hba : b ++ a with
    | nil => rw [hba] at hcyc; rw [hcyc.1]; simp
    | cons c m => rw [hba] at hcyc; rw [hcyc.1.1]; simp
  have hnm : n ∉ p :: (b ++ a) := by
    intro hm
    apply hnl
    simp only [List.mem_cons, List.mem_append] at hm ⊢
    rcases hm with h | h | h
    · exact Or.inr (Or.inl h)
    · exact Or.inr (Or.inr h)
    · exact Or.inl h
  have hcn : h.next p ≠ n := fun he => hnm (he ▸ hcm)
  have eNext : ∀ y, (link h p n).next y = if y = p then n else if y = n then h.next p else h.next y := by
    intro y
    simp only [link, Heap.setNext, Heap.setPrev, Heap.setRoot, upd]
  have ePrev : ∀ y, (link h p n).prev y = if y = h.next p then n else if y = n then p else h.prev y := by
    intro y
    simp only [link, Heap.setNext, Heap.setPrev, Heap.setRoot, upd, hpn, if_false]
  have eRoot : ∀ y, (link h p n).root y = if y = n then h.root p else h.root y := by
    intro y
    simp only [link, Heap.setNext, Heap.setPrev, Heap.setRoot, upd]
  refine ⟨?_, ?_⟩
  · rw [insertAfter_eq p [n] b a hpa]
    have hsp : Path (link h p n) p (n :: ([] ++ (b ++ a))) p := by
      apply cyc_splice h _ p n (b ++ a) [] hcyc ⟨hnn, hnp⟩
      · have : (p :: (b ++ a) ++ [n]).Perm (n :: (p :: (b ++ a))) := List.perm_append_singleton _ _
        rw [this.nodup_iff, List.nodup_cons]
        exact ⟨hnm, hndr⟩
      · rw [eNext, hnp, if_neg hpn.symm, if_pos rfl]
      · rw [eNext, if_pos rfl]
      · intro y hy hyz
        rw [hnp] at hyz
        rw [eNext, if_neg, if_neg hyz]
        rintro rfl
        simp only [List.mem_append, List.mem_singleton] at hy
        rcases hy with h | h
        · exact (List.nodup_cons.mp hndr).1 (by simpa using h)
        · exact hpn h
      · rw [ePrev, if_pos rfl, hnp]
      · rw [ePrev, if_neg hcn.symm, if_pos rfl]
      · intro y hy hyc
        rw [ePrev, if_neg hyc, if_neg]
        rintro rfl
        exact hnm (by simpa using hy)
    have hmid : (a ++ p :: ([n] ++ b)) = a ++ p :: n :: b := rfl
    rw [hmid]
    have hr' : Ring h (a ++ p :: b) := hr
    have hrt := ring_root hr' p (by simp)
    have hnd' : (a ++ p :: n :: b).Nodup := by
      have : (a ++ p :: n :: b).Perm (n :: (a ++ p :: b)) := by
        have h1 : (p :: n :: b).Perm (n :: p :: b) := List.Perm.swap _ _ _
        exact (h1.append_left a).trans (List.perm_middle)
      rw [this.nodup_iff, List.nodup_cons]
      exact ⟨hnl, hnd⟩
    apply ring_back (r := h.root p)
    · simpa using hsp
    · exact hnd'
    · cases a <;> simpa using hrt
    · intro y hy
      rw [eRoot]
      by_cases hyn : y = n
      · rw [if_pos hyn]
      · rw [if_neg hyn]
        have hy' : y ∈ a ++ p :: b := by
          simp only [List.mem_append, List.mem_cons] at hy ⊢
          rcases hy with h | h | h | h
          · exact Or.inl h
          · exact Or.inr (Or.inl h)
          · exact absurd h hyn
          · exact Or.inr (Or.inr h)
        have := ring_root hr' y hy'
        rw [hrt] at this
        exact (Option.some.inj this).symm
  · intro y hy hyn
    have h1 : y ≠ p := fun he => hy (he ▸ hp)
    have h2 : y ≠ h.next p := by
      intro he
      apply hy
      rw [he]
      simp only [List.mem_cons, List.mem_append] at hcm ⊢
      rcases hcm with h | h | h
      · exact Or.inr (Or.inl h)
      · exact Or.inr (Or.inr h)
      · exact Or.inl h
    exact ⟨by rw [eNext, if_neg h1, if_neg hyn], by rw [ePrev, if_neg h2, if_neg hyn],
      by rw [eRoot, if_neg hyn]⟩

theorem mem_rotate {a b : List (Node N)} {x y : Node N} :
    y ∈ x :: (b ++ a) ↔ y ∈ a ++ x :: b := by
  simp only [List.mem_append, List.mem_cons]
  constructor
  · rintro (h | h | h)
    · exact Or.inr (Or.inl h)
    · exact Or.inr (Or.inr h)
    · exact Or.inl h
  · rintro (h | h | h)
    · exact Or.inr (Or.inr h)
    · exact Or.inl h
    · exact Or.inr (Or.inl h)

theorem next_mem {h : Heap N} {x : Node N} {m : List (Node N)} (hp : Path h x m x) :
    h.next x ∈ x :: m := by
  cases m with
  | nil => rw [hp.1]; simp
  | cons c m => rw [hp.1.1]; simp

theorem rerootAll_spec (h : Heap N) (l : List (Node N)) (x : Node N) (hr : Ring h l) (hx : x ∈ l) :
    ∃ h', rerootAll h x = some h' ∧ Ring h' (rotateTo x l) ∧
      ∀ y, y ∉ l → h'.next y = h.next y ∧ h'.prev y = h.prev y ∧ h'.root y = h.root y := by
  obtain ⟨a, b, rfl, hxa⟩ := List.eq_append_cons_of_mem hx
  have hnd := nodup_rotate (ring_nodup hr)
  have hcyc := cyc_at (ring_cyc hr)
  refine ⟨_, reroot_path h x x x (h.prev x) (b ++ a) hcyc hnd
    (path_prev_last h _ _ _ hcyc).symm, ?_, ?_⟩
  · rw [rotateTo_eq x a b hxa]
    refine ⟨hnd, path_frame h _ _ _ _ (fun _ _ => rfl) (fun _ _ => rfl) rfl hcyc, ?_⟩
    intro y hy
    simp only [hy, if_true]
  · intro y hy
    have : y ∉ x :: (b ++ a) := fun hm => hy (mem_rotate.mp hm)
    simp only [this, if_false, and_self]

theorem splice_spec (h : Heap N) (l k : List (Node N)) (p f : Node N) (hl : Ring h l) (hp : p ∈ l)
    (hk : Ring h k) (hf : f ∈ k) (hdis : ∀ y ∈ l, y ∉ k) :
    ∃ h', splice h p f = some h' ∧ Ring h' (insertAfter p (rotateTo f k) l) ∧
      ∀ y, y ∉ l → y ∉ k →
        h'.next y = h.next y ∧ h'.prev y = h.prev y ∧ h'.root y = h.root y := by
  have hrl := ring_root hl p hp
  have hrk := ring_root hk f hf
  have hrl_mem : h.root p ∈ l := List.mem_of_mem_head? hrl
  have hrk_mem : h.root f ∈ k := List.mem_of_mem_head? hrk
  have hne : h.root f ≠ h.root p := fun he => hdis _ hrl_mem (he ▸ hrk_mem)
  obtain ⟨c, d, rfl, hfc⟩ := List.eq_append_cons_of_mem hf
  have hndk := nodup_rotate (ring_nodup hk)
  have hcyck := cyc_at (ring_cyc hk)
  rw [rotateTo_eq f c d hfc]
  unfold splice
  rw [if_neg hne]
  by_cases hs : f = h.next f
  · -- a single node
    have hdc : d ++ c = [] := by
      cases hdc : d ++ c with
      | nil => rfl
      | cons e m =>
        rw [hdc] at hcyck hndk
        have : f = e := hs.trans hcyck.1.1
        subst this
        simp at hndk
    simp only [List.append_eq_nil_iff] at hdc
    obtain ⟨rfl, rfl⟩ := hdc
    rw [if_pos hs, insert_eq, remove_single h f hk, Option.bind_some]
    have hfl : f ∉ l := fun hm => hdis f hm (by simp)
    obtain ⟨h1, h2⟩ := link_spec h l p f hl hp hk hfl
    refine ⟨_, rfl, h1, fun y hy hyk => h2 y hy (fun he => hyk (by simp [he]))⟩
  · rw [if_neg hs]
    have hlast := path_prev_last h _ _ _ hcyck
    rw [reroot_path h f f (h.root p) (h.prev f) (d ++ c) hcyck hndk hlast.symm, Option.bind_some]
    refine ⟨_, rfl, ?_⟩
    obtain ⟨a, b, rfl, hpa⟩ := List.eq_append_cons_of_mem hp
    have hndl := nodup_rotate (ring_nodup hl)
    have hcycl := cyc_at (ring_cyc hl)
    have hz := path_prev_mem h _ _ _ hcyck
    have hcm := next_mem hcycl
    have dis : ∀ y ∈ p :: (b ++ a), y ∉ f :: (d ++ c) := fun y hy hk =>
      hdis y (mem_rotate.mp hy) (mem_rotate.mp hk)
    have hpz : p ≠ h.prev f := fun he => dis p (by simp) (he ▸ hz)
    have hcf : h.next p ≠ f := fun he => dis _ hcm (he ▸ (by simp))
    have hzf : h.prev f ≠ f := by
      intro he
      apply hs
      cases hdc : d ++ c with
      | nil => rw [hdc] at hcyck; exact hcyck.1.symm
      | cons e m =>
        exfalso
        rw [hdc] at hcyck hndk
        have := path_prev_mem h m e f hcyck.2
        rw [he] at this
        exact (List.nodup_cons.mp hndk).1 this
    generalize hh : ((((({ h with root := fun y => if y ∈ f :: (d ++ c) then h.root p else h.root y }
      : Heap N).setNext _ _).setPrev _ _).setNext p f).setPrev f p) = h'
    have eNext : ∀ y, h'.next y = if y = p then f else if y = h.prev f then h.next p else h.next y := by
      intro y
      rw [← hh]
      simp only [Heap.setNext, Heap.setPrev, upd]
    have ePrev : ∀ y, h'.prev y = if y = f then p else if y = h.next p then h.prev f else h.prev y := by
      intro y
      rw [← hh]
      simp only [Heap.setNext, Heap.setPrev, upd, hpz, if_false]
    have eRoot : ∀ y, h'.root y = if y ∈ f :: (d ++ c) then h.root p else h.root y := by
      intro y
      rw [← hh]
      simp only [Heap.setNext, Heap.setPrev]
    have hndall : (p :: (b ++ a) ++ f :: (d ++ c)).Nodup := by
      rw [List.nodup_append]
      exact ⟨hndl, hndk, fun y hy z hz he => dis y hy (he ▸ hz)⟩
    refine ⟨?_, ?_⟩
    · rw [insertAfter_eq p _ b a hpa]
      have hsp : Path h' p (f :: ((d ++ c) ++ (b ++ a))) p := by
        apply cyc_splice h h' p f (b ++ a) (d ++ c) hcycl hcyck hndall
        · rw [eNext, if_neg hpz.symm, if_pos rfl]
        · rw [eNext, if_pos rfl]
        · intro y hy hyz
          rw [eNext, if_neg, if_neg hyz]
          rintro rfl
          rw [List.mem_append] at hy
          rcases hy with h | h
          · exact (List.nodup_cons.mp hndl).1 h
          · exact dis y (by simp) h
        · rw [ePrev, if_neg hcf, if_pos rfl]
        · rw [ePrev, if_pos rfl]
        · intro y hy hyc
          rw [ePrev, if_neg, if_neg hyc]
          rintro rfl
          rw [List.mem_append] at hy
          rcases hy with h | h
          · exact dis y h (by simp)
          · exact (List.nodup_cons.mp hndk).1 h
      apply ring_back (r := h.root p)
      · simpa using hsp
      · have hperm : (a ++ p :: (f :: (d ++ c) ++ b)).Perm (p :: (b ++ a) ++ f :: (d ++ c)) := by
          refine List.perm_middle.trans ?_
          rw [List.cons_append]
          apply List.Perm.cons
          have h1 : (a ++ (f :: (d ++ c) ++ b)).Perm ((f :: (d ++ c) ++ b) ++ a) :=
            List.perm_append_comm
          refine h1.trans ?_
          rw [List.append_assoc]
          exact List.perm_append_comm
        rw [hperm.nodup_iff]
        exact hndall
      · cases a <;> simpa using hrl
      · intro y hy
        rw [eRoot]
        by_cases hyk : y ∈ f :: (d ++ c)
        · rw [if_pos hyk]
        · rw [if_neg hyk]
          have hy' : y ∈ a ++ p :: b := by
            rw [List.mem_append, List.mem_cons, List.mem_append] at hy
            rw [List.mem_append, List.mem_cons]
            rcases hy with h | h | h | h
            · exact Or.inl h
            · exact Or.inr (Or.inl h)
            · exact absurd h hyk
            · exact Or.inr (Or.inr h)
          have := ring_root hl y hy'
          rw [hrl] at this
          exact (Option.some.inj this).symm
    · intro y hy hyk
      have hyk' : y ∉ f :: (d ++ c) := fun hm => hyk (mem_rotate.mp hm)
      have hy' : y ∉ p :: (b ++ a) := fun hm => hy (mem_rotate.mp hm)
      refine ⟨?_, ?_, ?_⟩
      · rw [eNext, if_neg (fun he => hy' (by simp [he])), if_neg (fun he : y = h.prev f => hyk' (he ▸ hz))]
      · rw [ePrev, if_neg (fun he => hyk' (by simp [he])), if_neg (fun he : y = h.next p => hy' (he ▸ hcm))]
      · rw [eRoot, if_neg hyk']

/-- The loop of `cut` along a path. -/
theorem cutLoop_path (h : Heap N) (r t : Node N) (u : List (Node N)) : ∀ (fuel : Nat) (a : Node N),
    Path h a u t → t ∉ u → u.length + 1 ≤ fuel →
    cutLoop h r t fuel a = some (decide (r ∈ u ++ [t])) := by
  induction u with
  | nil =>
    intro fuel a hp _ hf
    obtain ⟨f, rfl⟩ : ∃ f, fuel = f + 1 := ⟨fuel - 1, by omega⟩
    have hn : h.next a = t := hp.1
    simp only [cutLoop, hn, if_true, List.nil_append, List.mem_singleton]
    by_cases hr : t = r
    · simp [hr]
    · simp [hr, Ne.symm hr]
  | cons x u ih =>
    intro fuel a hp ht hf
    obtain ⟨f, rfl⟩ : ∃ f, fuel = f + 1 := ⟨fuel - 1, by omega⟩
    have hn : h.next a = x := hp.1.1
    simp only [cutLoop, hn]
    by_cases hr : x = r
    · simp [hr]
    · have hxt : x ≠ t := fun he => ht (by simp [he])
      rw [if_neg hr, if_neg hxt, ih f x hp.2 (fun hm => ht (List.mem_cons_of_mem _ hm))
        (by simp at hf; omega)]
      simp [Ne.symm hr]

/-- Cutting the nodes from `f` through `t` out of a ring, of which `c :: e` are the others. -/
theorem cut_spec (h : Heap N) (l : List (Node N)) (f t c : Node N) (s e : List (Node N))
    (hr : Ring h l) (hf : f ∈ l) (hrot : rotateTo f l = f :: (s ++ t :: c :: e)) :
    ∃ h', cut h f t = some h' ∧ Ring h' (f :: (s ++ [t])) ∧
      Ring h' (if h.root f ∈ f :: (s ++ [t]) then c :: e else rotateTo (h.root f) (c :: e)) ∧
      ∀ y, y ∉ l → h'.next y = h.next y ∧ h'.prev y = h.prev y ∧ h'.root y = h.root y := by
  obtain ⟨a, b, rfl, hfa⟩ := List.eq_append_cons_of_mem hf
  rw [rotateTo_eq f a b hfa] at hrot
  have hba : b ++ a = s ++ t :: c :: e := by simpa using hrot
  have hnd := nodup_rotate (ring_nodup hr)
  have hcyc := cyc_at (ring_cyc hr)
  rw [hba] at hnd hcyc
  have hmem : ∀ y, y ∈ a ++ f :: b ↔ y ∈ f :: (s ++ t :: c :: e) := by
    intro y; rw [← mem_rotate, hba]
  have hnd0 := hnd
  rw [List.nodup_cons, List.nodup_append] at hnd
  obtain ⟨hf1, hs1, htce, hsd⟩ := hnd
  rw [List.nodup_cons] at htce
  obtain ⟨ht1, hce⟩ := htce
  obtain ⟨hPs, hPt⟩ := (path_append h s f t f (c :: e)).mp hcyc
  have hLtc : Link h t c := hPt.1
  have hPc : Path h c e f := hPt.2
  have hft : f ≠ t := fun he => hf1 (by simp [he])
  have hfs : f ∉ s := fun hm => hf1 (by simp [hm])
  have hfce : f ∉ c :: e := fun hm => hf1 (by
    simp only [List.mem_append, List.mem_cons] at hm ⊢; exact Or.inr (Or.inr hm))
  have hz := path_prev_mem h e c f hPc
  have hzlast := path_prev_last h e c f hPc
  have hzt : h.prev f ≠ t := fun he => ht1 (he ▸ hz)
  have hfmem : f ∈ a ++ f :: b := by simp
  have htmem : t ∈ a ++ f :: b := (hmem t).mpr (by simp)
  have hroots : h.root f = h.root t := by
    have h1 := ring_root hr f hfmem
    have h2 := ring_root hr t htmem
    rw [h1] at h2
    exact Option.some.inj h2
  have hts : t ∉ s := fun hm => hsd t hm t (by simp) rfl
  have htce' : ∀ y ∈ s, y ∉ c :: e := fun y hy hm => hsd y hy y (List.mem_cons_of_mem _ hm) rfl
  -- the search for the root
  have hLzf : Link h (h.prev f) f := by
    refine ⟨?_, rfl⟩
    have : ∀ (l : List (Node N)) (a b : Node N), Path h a l b → h.next (h.prev b) = b := by
      intro l
      induction l with
      | nil => intro a b hp; rw [hp.2]; exact hp.1
      | cons x l ih => intro a b hp; exact ih x b hp.2
    exact this _ _ _ hPc
  have hloop : cutLoop h (h.root f) t N (h.prev f) = some (decide (h.root f ∈ f :: (s ++ [t]))) := by
    have hnodup : (f :: (s ++ [t])).Nodup := by
      have hsub : (f :: (s ++ [t])).Sublist (f :: (s ++ t :: c :: e)) := by
        apply List.Sublist.cons_cons
        apply List.Sublist.append_left
        simp
      exact hnd0.sublist hsub
    have := cutLoop_path h (h.root f) t (f :: s) N (h.prev f) ⟨hLzf, hPs⟩
      (by simp only [List.mem_cons, not_or]; exact ⟨hft.symm, hts⟩)
      (by have := nodup_length_le _ hnodup; simpa using this)
    simpa using this
  -- the roots after the search
  obtain ⟨ρ, hρ, hrer⟩ : ∃ ρ : Node N → Node N,
      (∀ y, ρ y = if h.root f ∈ f :: (s ++ [t]) ∧ y ∈ c :: e then c else h.root y) ∧
      (if decide (h.root f ∈ f :: (s ++ [t])) = true then
        reroot h (h.next t) (h.prev f) (h.next t) else some h) = some { h with root := ρ } := by
    by_cases hin : h.root f ∈ f :: (s ++ [t])
    · refine ⟨fun y => if y ∈ c :: e then c else h.root y, fun y => ?_, ?_⟩
      · simp only [hin, true_and]
      · rw [if_pos (by simpa using hin), hLtc.1]
        exact reroot_path h c f c (h.prev f) e hPc hce hzlast.symm
    · refine ⟨h.root, fun y => ?_, ?_⟩
      · simp only [hin, false_and, if_false]
      · rw [if_neg (by simpa using hin)]
  -- the pointers
  let h1 : Heap N := (((({ h with root := ρ } : Heap N).setNext (h.prev f) c).setPrev c
    (h.prev f)).setPrev f t).setNext t f
  have eNext : ∀ y, h1.next y = if y = t then f else if y = h.prev f then c else h.next y := by
    intro y
    simp only [h1, Heap.setNext, Heap.setPrev, upd]
  have ePrev : ∀ y, h1.prev y = if y = f then t else if y = c then h.prev f else h.prev y := by
    intro y
    simp only [h1, Heap.setNext, Heap.setPrev, upd]
  have eRoot : ∀ y, h1.root y = if h.root f ∈ f :: (s ++ [t]) ∧ y ∈ c :: e then c else h.root y := by
    intro y
    rw [← hρ]
    simp only [h1, Heap.setNext, Heap.setPrev]
  have hcf : c ≠ f := fun he => hfce (by simp [he])
  have htc : t ≠ c := fun he => ht1 (by simp [he])
  have hPseg : Path h1 f (s ++ [t]) f := by
    rw [path_append]
    refine ⟨?_, ⟨by rw [eNext, if_pos rfl], by rw [ePrev, if_pos rfl]⟩⟩
    apply path_frame h h1 s f t _ _ _ hPs
    · intro y hy
      rw [eNext, if_neg, if_neg]
      · rintro rfl
        rcases List.mem_cons.mp hy with h | h
        · exact hfce (h ▸ hz)
        · exact htce' _ h hz
      · rintro rfl
        rcases List.mem_cons.mp hy with h | h
        · exact hft h.symm
        · exact hts h
    · intro y hy
      rw [ePrev, if_neg, if_neg]
      · rintro rfl; exact htce' _ hy (by simp)
      · rintro rfl; exact hfs hy
    · rw [ePrev, if_neg hft.symm, if_neg htc]
  have hPrest : Path h1 c e c := by
    apply path_retarget h h1 f c e c hPc hce (List.nodup_cons.mp hce).1
    · rw [eNext, if_neg hzt, if_pos rfl]
    · rw [ePrev, if_neg hcf, if_pos rfl]
    · intro y hy hyz
      rw [eNext, if_neg, if_neg hyz]
      rintro rfl; exact ht1 hy
    · intro y hy
      rw [ePrev, if_neg, if_neg]
      · rintro rfl; exact (List.nodup_cons.mp hce).1 hy
      · rintro rfl; exact hfce (List.mem_cons_of_mem _ hy)
  have hndseg : (f :: (s ++ [t])).Nodup := by
    have hsub : (f :: (s ++ [t])).Sublist (f :: (s ++ t :: c :: e)) := by
      apply List.Sublist.cons_cons
      apply List.Sublist.append_left
      simp
    exact hnd0.sublist hsub
  have hdisj : ∀ y ∈ c :: e, y ∉ f :: (s ++ [t]) := by
    intro y hy hm
    simp only [List.mem_cons, List.mem_append, List.not_mem_nil, or_false] at hm
    rcases hm with rfl | h | rfl
    · exact hfce hy
    · exact htce' y h hy
    · exact ht1 hy
  refine ⟨{ h1 with root := fun y => if y ∈ f :: (s ++ [t]) then f else h1.root y }, ?_, ?_, ?_, ?_⟩
  · unfold cut
    rw [if_neg (by simpa using hroots), if_neg hzt, if_neg hft, hloop, Option.bind_some, hrer,
      Option.bind_some]
    have hlast : (f :: (s ++ [t])).getLast (by simp) = t := by simp
    have := reroot_path h1 f f f t (s ++ [t]) hPseg hndseg hlast
    rw [← this]
    simp only [Heap.setNext, Heap.setPrev, upd, hLtc.1, Ne.symm hzt, if_false, h1]
  · refine ⟨hndseg, path_frame h1 _ _ _ _ (fun _ _ => rfl) (fun _ _ => rfl) rfl hPseg, ?_⟩
    intro y hy
    simp only [hy, if_true]
  · by_cases hin : h.root f ∈ f :: (s ++ [t])
    · rw [if_pos hin]
      refine ⟨hce, path_frame h1 _ _ _ _ (fun _ _ => rfl) (fun _ _ => rfl) rfl hPrest, ?_⟩
      intro y hy
      simp only [hdisj y hy, if_false]
      rw [eRoot, if_pos ⟨hin, hy⟩]
    · rw [if_neg hin]
      have hrmem : h.root f ∈ c :: e := by
        have h1 : h.root f ∈ a ++ f :: b := List.mem_of_mem_head? (ring_root hr f hfmem)
        rw [hmem] at h1
        simp only [List.mem_cons, List.mem_append, List.not_mem_nil, or_false, not_or] at h1 hin ⊢
        rcases h1 with h | h | h | h | h
        · exact absurd h hin.1
        · exact absurd h hin.2.1
        · exact absurd h hin.2.2
        · exact Or.inl h
        · exact Or.inr h
      obtain ⟨u, v, huv, hu⟩ := List.eq_append_cons_of_mem hrmem
      rw [huv, rotateTo_eq _ u v hu]
      have hcu : Cyc h1 (u ++ h.root f :: v) := by rw [← huv]; exact hPrest
      have := cyc_at hcu
      refine ⟨nodup_rotate (by rw [← huv]; exact hce),
        path_frame h1 _ _ _ _ (fun _ _ => rfl) (fun _ _ => rfl) rfl this, ?_⟩
      intro y hy
      have hy' : y ∈ c :: e := by rw [huv]; exact mem_rotate.mp hy
      simp only [hdisj y hy', if_false]
      rw [eRoot, if_neg (fun hh => hin hh.1)]
      have hyl : y ∈ a ++ f :: b := (hmem y).mpr (by
        simp only [List.mem_cons, List.mem_append] at hy' ⊢
        exact Or.inr (Or.inr (Or.inr hy')))
      have h1 := ring_root hr f hfmem
      have h2 := ring_root hr y hyl
      rw [h1] at h2
      exact (Option.some.inj h2).symm
  · intro y hy
    rw [hmem] at hy
    have y1 : y ∉ c :: e := fun hm => hy (by
      simp only [List.mem_cons, List.mem_append] at hm ⊢
      exact Or.inr (Or.inr (Or.inr hm)))
    have y2 : y ∉ f :: (s ++ [t]) := fun hm => hy (by
      simp only [List.mem_cons, List.mem_append, List.not_mem_nil, or_false] at hm ⊢
      rcases hm with h | h | h
      · exact Or.inl h
      · exact Or.inr (Or.inl h)
      · exact Or.inr (Or.inr (Or.inl h)))
    have y3 : y ≠ t := fun he => y2 (by simp [he])
    have y4 : y ≠ f := fun he => y2 (by simp [he])
    have y5 : y ≠ c := fun he => y1 (by simp [he])
    have y6 : y ≠ h.prev f := fun he => y1 (he ▸ hz)
    refine ⟨?_, ?_, ?_⟩
    · change h1.next y = _
      rw [eNext, if_neg y3, if_neg y6]
    · change h1.prev y = _
      rw [ePrev, if_neg y4, if_neg y5]
    · simp only [y2, if_false]
      rw [eRoot, if_neg (fun hh => y1 hh.2)]

end Diminuto.DList
