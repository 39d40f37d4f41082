import Verif.List
import Mathlib.Data.List.Nodup
import Mathlib.Data.List.Rotate
import Mathlib.Data.Fintype.Card

/-!
# Helper lemmas on the List: linked paths and rings
-/

namespace Diminuto.DList

variable {N : Nat}

/-- `b` follows `a`. -/
def Link (h : Heap N) (a b : Node N) : Prop := h.next a = b ∧ h.prev b = a

/-- From `a` through the nodes of `l` to `b`. -/
def Path (h : Heap N) : Node N → List (Node N) → Node N → Prop
  | a, [], b => Link h a b
  | a, x :: l, b => Link h a x ∧ Path h x l b

/-- The nodes of the list, in order, make up a cycle. -/
def Cyc (h : Heap N) : List (Node N) → Prop
  | [] => False
  | a :: l => Path h a l a

/-- The nodes of the list make up a ring, of which the first is the root. -/
def Ring (h : Heap N) : List (Node N) → Prop
  | [] => False
  | r :: l => (r :: l).Nodup ∧ Path h r l r ∧ ∀ y ∈ r :: l, h.root y = r

theorem path_append (h : Heap N) (l : List (Node N)) : ∀ (a x b : Node N) (m : List (Node N)),
    Path h a (l ++ x :: m) b ↔ Path h a l x ∧ Path h x m b := by
  induction l with
  | nil => intro a x b m; rfl
  | cons y l ih =>
    intro a x b m
    simp only [List.cons_append, Path, ih, and_assoc]

theorem cyc_rotate (h : Heap N) (l m : List (Node N)) (hc : Cyc h (l ++ m)) : Cyc h (m ++ l) := by
  cases l with
  | nil => simpa using hc
  | cons a l =>
    cases m with
    | nil => simpa using hc
    | cons b m =>
      simp only [List.cons_append, Cyc] at hc ⊢
      rw [path_append] at hc ⊢
      exact ⟨hc.2, hc.1⟩

/-- Two heaps with the same pointers in the nodes of a list. -/
def Agree (h h' : Heap N) (l : List (Node N)) : Prop :=
  ∀ y ∈ l, h'.next y = h.next y ∧ h'.prev y = h.prev y ∧ h'.root y = h.root y

theorem path_frame (h h' : Heap N) (l : List (Node N)) : ∀ (a b : Node N),
    (∀ y ∈ a :: l, h'.next y = h.next y) → (∀ y ∈ l, h'.prev y = h.prev y) →
    h'.prev b = h.prev b → Path h a l b → Path h' a l b := by
  induction l with
  | nil =>
    intro a b hn _ hb hp
    exact ⟨by rw [hn a (by simp)]; exact hp.1, by rw [hb]; exact hp.2⟩
  | cons x l ih =>
    intro a b hn hp hb hc
    refine ⟨⟨by rw [hn a (by simp)]; exact hc.1.1, by rw [hp x (by simp)]; exact hc.1.2⟩, ?_⟩
    exact ih x b (fun y hy => hn y (List.mem_cons_of_mem _ hy))
      (fun y hy => hp y (List.mem_cons_of_mem _ hy)) hb hc.2

theorem cyc_frame (h h' : Heap N) (l : List (Node N)) (hn : ∀ y ∈ l, h'.next y = h.next y)
    (hp : ∀ y ∈ l, h'.prev y = h.prev y) (hc : Cyc h l) : Cyc h' l := by
  cases l with
  | nil => exact hc
  | cons a l =>
    exact path_frame h h' l a a hn (fun y hy => hp y (List.mem_cons_of_mem _ hy)) (hp a (by simp)) hc

theorem ring_frame (h h' : Heap N) (l : List (Node N)) (ha : Agree h h' l) (hr : Ring h l) :
    Ring h' l := by
  cases l with
  | nil => exact hr
  | cons r l =>
    obtain ⟨h1, h2, h3⟩ := hr
    refine ⟨h1, ?_, fun y hy => by rw [(ha y hy).2.2]; exact h3 y hy⟩
    exact cyc_frame h h' (r :: l) (fun y hy => (ha y hy).1) (fun y hy => (ha y hy).2.1) h2

/-- The last node before the end of a path. -/
theorem path_prev_mem (h : Heap N) (l : List (Node N)) : ∀ (a b : Node N), Path h a l b →
    h.prev b ∈ a :: l := by
  induction l with
  | nil => intro a b hp; rw [hp.2]; simp
  | cons x l ih => intro a b hp; exact List.mem_cons_of_mem _ (ih x b hp.2)

theorem path_prev_last (h : Heap N) (l : List (Node N)) : ∀ (a b : Node N), Path h a l b →
    h.prev b = (a :: l).getLast (by simp) := by
  induction l with
  | nil => intro a b hp; exact hp.2
  | cons x l ih => intro a b hp; rw [ih x b hp.2]; simp

/-- Redirecting the end of a path from `x` to `q`. -/
theorem path_retarget (h h' : Heap N) (x q : Node N) (l : List (Node N)) : ∀ (a : Node N),
    Path h a l x → (a :: l).Nodup → q ∉ l → h'.next (h.prev x) = q → h'.prev q = h.prev x →
    (∀ y ∈ a :: l, y ≠ h.prev x → h'.next y = h.next y) →
    (∀ y ∈ l, h'.prev y = h.prev y) → Path h' a l q := by
  induction l with
  | nil =>
    intro a hp _ _ h1 h2 _ _
    have : h.prev x = a := hp.2
    rw [this] at h1 h2
    exact ⟨h1, h2⟩
  | cons y l ih =>
    intro a hp hnd hq h1 h2 h3 h4
    have hm := path_prev_mem h l y x hp.2
    have hne : a ≠ h.prev x := by
      intro he
      rw [List.nodup_cons] at hnd
      exact hnd.1 (he ▸ hm)
    refine ⟨⟨?_, ?_⟩, ?_⟩
    · rw [h3 a (by simp) hne]; exact hp.1.1
    · rw [h4 y (by simp)]; exact hp.1.2
    · exact ih y hp.2 (List.nodup_cons.mp hnd).2 (fun h => hq (List.mem_cons_of_mem _ h)) h1 h2
        (fun z hz => h3 z (List.mem_cons_of_mem _ hz)) (fun z hz => h4 z (List.mem_cons_of_mem _ hz))

theorem nodup_length_le (l : List (Node N)) (h : l.Nodup) : l.length ≤ N := by
  have := h.length_le_card
  simpa using this

/-- The loop of `reroot` along a path. -/
theorem rerootLoop_path (firstp lastp rootp b : Node N) (l : List (Node N)) :
    ∀ (fuel : Nat) (a : Node N) (h : Heap N), Path h a l b → (a :: l).length ≤ fuel →
      (a :: l).Nodup → firstp ∉ l → (a :: l).getLast (by simp) = lastp →
      rerootLoop firstp lastp rootp fuel a h =
        some { h with root := fun y => if y ∈ a :: l then rootp else h.root y } := by
  induction l with
  | nil =>
    intro fuel a h _ hf _ _ hl
    obtain ⟨f, rfl⟩ : ∃ f, fuel = f + 1 := ⟨fuel - 1, by simp at hf; omega⟩
    simp only [List.getLast_singleton] at hl
    simp [rerootLoop, hl, Heap.setRoot]
    rfl
  | cons x l ih =>
    intro fuel a h hp hf hnd hfirst hl
    obtain ⟨f, rfl⟩ : ∃ f, fuel = f + 1 := ⟨fuel - 1, by simp at hf; omega⟩
    have hnl : a ≠ lastp := by
      intro he
      rw [List.getLast_cons (by simp)] at hl
      rw [List.nodup_cons] at hnd
      apply hnd.1
      rw [he, ← hl]
      exact List.getLast_mem _
    have hnx : x ≠ firstp := fun he => hfirst (by simp [he])
    have hnext : h.next a = x := hp.1.1
    simp only [rerootLoop, hnl, if_false]
    have h1 : (h.setRoot a rootp).next a = x := hnext
    rw [h1, if_neg hnx]
    have hp' : Path (h.setRoot a rootp) x l b :=
      path_frame h _ l x b (fun _ _ => rfl) (fun _ _ => rfl) rfl hp.2
    rw [ih f x _ hp' (by simp at hf ⊢; omega) (List.nodup_cons.mp hnd).2
      (fun hm => hfirst (List.mem_cons_of_mem _ hm)) (by rw [← hl]; exact (List.getLast_cons (List.cons_ne_nil x l)).symm)]
    simp only [Heap.setRoot, Option.some.injEq, Heap.mk.injEq, true_and]
    funext y
    by_cases hy : y ∈ x :: l
    · rw [if_pos hy, if_pos (List.mem_cons_of_mem _ hy)]
    · rw [if_neg hy]
      simp only [upd]
      by_cases hya : y = a
      · subst hya; simp
      · rw [if_neg hya, if_neg]
        rw [List.mem_cons]
        rintro (h | h)
        · exact hya h
        · exact hy h

/-- `reroot` from one node of a ring to another one. -/
theorem reroot_path (h : Heap N) (a b rootp lastp : Node N) (l : List (Node N)) (hp : Path h a l b)
    (hnd : (a :: l).Nodup) (hl : (a :: l).getLast (by simp) = lastp) :
    reroot h a lastp rootp =
      some { h with root := fun y => if y ∈ a :: l then rootp else h.root y } :=
  rerootLoop_path a lastp rootp b l N a h hp (nodup_length_le _ hnd) hnd
    (List.nodup_cons.mp hnd).1 hl

theorem ring_nodup {h : Heap N} {l : List (Node N)} (hr : Ring h l) : l.Nodup := by
  cases l with
  | nil => exact List.nodup_nil
  | cons => exact hr.1

theorem ring_cyc {h : Heap N} {l : List (Node N)} (hr : Ring h l) : Cyc h l := by
  cases l with
  | nil => exact hr
  | cons => exact hr.2.1

theorem ring_root {h : Heap N} {l : List (Node N)} (hr : Ring h l) (y : Node N) (hy : y ∈ l) :
    l.head? = some (h.root y) := by
  cases l with
  | nil => simp at hy
  | cons r l => rw [hr.2.2 y hy]; rfl

theorem ring_of_cyc {h : Heap N} {r : Node N} {l : List (Node N)} (hc : Cyc h (r :: l))
    (hnd : (r :: l).Nodup) (hroot : ∀ y ∈ r :: l, h.root y = r) : Ring h (r :: l) :=
  ⟨hnd, hc, hroot⟩

/-- A cycle can be seen as starting at any of its nodes. -/
theorem cyc_at {h : Heap N} {a b : List (Node N)} {x : Node N} (hc : Cyc h (a ++ x :: b)) :
    Path h x (b ++ a) x := by
  have := cyc_rotate h a (x :: b) hc
  simpa [Cyc] using this

theorem remove_spec (h : Heap N) (l : List (Node N)) (x : Node N) (hr : Ring h l) (hx : x ∈ l)
    (hne : l ≠ [x]) :
    ∃ h', remove h x = some h' ∧ Ring h' (l.erase x) ∧ Ring h' [x] ∧
      ∀ y, y ∉ l → h'.next y = h.next y ∧ h'.prev y = h.prev y ∧ h'.root y = h.root y := by
  obtain ⟨a, b, rfl, hxa⟩ := List.eq_append_cons_of_mem hx
  have hnd := ring_nodup hr
  have hcyc := cyc_at (ring_cyc hr)
  have hndr : (x :: (b ++ a)).Nodup := by
    have : (x :: (b ++ a)).Perm (a ++ x :: b) :=
      (List.Perm.cons x (List.perm_append_comm)).trans (List.perm_middle.symm)
    exact this.nodup_iff.mpr hnd
  have hxb : x ∉ b := fun hm => (List.nodup_cons.mp hndr).1 (by simp [hm])
  have herase : (a ++ x :: b).erase x = a ++ b := by
    rw [List.erase_append_right _ hxa, List.erase_cons_head]
  -- the ring seen from x: c follows, m is the rest
  obtain ⟨c, m, hcm⟩ : ∃ c m, b ++ a = c :: m := by
    cases hba : b ++ a with
    | nil =>
      simp only [List.append_eq_nil_iff] at hba
      exact absurd (by simp [hba.1, hba.2]) hne
    | cons c m => exact ⟨c, m, rfl⟩
  rw [hcm] at hcyc hndr
  have hnext : h.next x = c := hcyc.1.1
  have hxc : x ≠ c := fun he => (List.nodup_cons.mp hndr).1 (by simp [he])
  have hlast := path_prev_last h m c x hcyc.2
  have hpm := path_prev_mem h m c x hcyc.2
  have hpx : h.prev x ≠ x := fun he => (List.nodup_cons.mp hndr).1 (he ▸ hpm)
  have hndc : (c :: m).Nodup := (List.nodup_cons.mp hndr).2
  have hxcm : x ∉ c :: m := (List.nodup_cons.mp hndr).1
  -- the roots after rerooting
  obtain ⟨ρ, hρ, hrer⟩ : ∃ ρ : Node N → Node N,
      (∀ y, ρ y = if x = h.root x ∧ y ∈ c :: m then c else h.root y) ∧
      (if x = h.root x then reroot h (h.next x) (h.prev x) (h.next x) else some h) =
        some { h with root := ρ } := by
    by_cases hroot : x = h.root x
    · refine ⟨fun y => if y ∈ c :: m then c else h.root y, fun y => ?_, ?_⟩
      · simp [← hroot]
      · rw [if_pos hroot, hnext]
        exact reroot_path h c x c (h.prev x) m hcyc.2 hndc hlast.symm
    · refine ⟨h.root, fun y => ?_, ?_⟩
      · simp [hroot]
      · rw [if_neg hroot]
  refine ⟨init ((({ h with root := ρ } : Heap N).setPrev c (h.prev x)).setNext (h.prev x) c) x,
    ?_, ?_, ?_, ?_⟩
  · unfold remove
    rw [if_pos (by rw [hnext]; exact hxc), hrer]
    simp only [Option.bind_some, Heap.setPrev, Heap.setNext, upd, hnext,
      if_neg hxc]
  · -- the remaining ring
    have hcyc' : Cyc (init ((({ h with root := ρ } : Heap N).setPrev c (h.prev x)).setNext
        (h.prev x) c) x) (c :: m) := by
      apply path_retarget h _ x c m c hcyc.2 hndc (List.nodup_cons.mp hndc).1
      · simp [init, Heap.setNext, Heap.setPrev, Heap.setRoot, upd, hpx]
      · simp [init, Heap.setNext, Heap.setPrev, Heap.setRoot, upd, Ne.symm hxc]
      · intro y hy hyp
        have : y ≠ x := fun he => hxcm (he ▸ hy)
        simp [init, Heap.setNext, Heap.setPrev, Heap.setRoot, upd, this, hyp]
      · intro y hy
        have h1 : y ≠ x := fun he => hxcm (he ▸ List.mem_cons_of_mem _ hy)
        have h2 : y ≠ c := fun he => (List.nodup_cons.mp hndc).1 (he ▸ hy)
        simp [init, Heap.setNext, Heap.setPrev, Heap.setRoot, upd, h1, h2]
    rw [← hcm] at hcyc'
    have hcyc2 := cyc_rotate _ b a hcyc'
    rw [herase]
    have hmem : ∀ y, y ∈ c :: m ↔ y ∈ a ++ b := by
      intro y; rw [← hcm]; simp [or_comm]
    have hroots : ∀ y ∈ a ++ b, (init ((({ h with root := ρ } : Heap N).setPrev c
        (h.prev x)).setNext (h.prev x) c) x).root y = if x = h.root x then c else h.root y := by
      intro y hy
      have hyx : y ≠ x := fun he => hxcm (he ▸ (hmem y).mpr hy)
      simp only [init, Heap.setNext, Heap.setPrev, Heap.setRoot, upd, hyx, if_false, hρ,
        (hmem y).mpr hy, and_true]
    have hndab : (a ++ b).Nodup := by
      have := hnd.erase x
      rwa [herase] at this
    cases a with
    | nil =>
      simp only [List.append_nil] at hcm
      rw [List.nil_append, hcm] at hcyc2 hroots hndab ⊢
      have hxr : h.root x = x := hr.2.2 x hx
      exact ring_of_cyc hcyc2 hndab (fun y hy => by rw [hroots y hy, if_pos hxr.symm])
    | cons r a =>
      simp only [List.cons_append] at hcyc2 hroots hndab hr ⊢
      have hxr : h.root x = r := hr.2.2 x hx
      have hxne : ¬ x = h.root x := by
        rw [hxr]
        intro he
        exact hxa (by simp [he])
      refine ring_of_cyc hcyc2 hndab (fun y hy => ?_)
      rw [hroots y hy, if_neg hxne]
      exact hr.2.2 y (by
        simp only [List.mem_cons, List.mem_append] at hy ⊢
        rcases hy with h | h | h
        · exact Or.inl h
        · exact Or.inr (Or.inl h)
        · exact Or.inr (Or.inr (Or.inr h)))
  · refine ⟨by simp, ⟨?_, ?_⟩, ?_⟩
    · simp [init, Heap.setNext, Heap.setPrev, Heap.setRoot, upd]
    · simp [init, Heap.setNext, Heap.setPrev, Heap.setRoot, upd]
    · intro y hy
      simp only [List.mem_singleton] at hy
      subst hy
      simp [init, Heap.setNext, Heap.setPrev, Heap.setRoot, upd]
  · intro y hy
    have hycm : y ∉ c :: m := by
      rw [← hcm]
      intro hm
      apply hy
      simp only [List.mem_append, List.mem_cons] at hm ⊢
      rcases hm with h | h
      · exact Or.inr (Or.inr h)
      · exact Or.inl h
    have h1 : y ≠ x := fun he => hy (he ▸ hx)
    have h2 : y ≠ c := fun he => hycm (by simp [he])
    have h3 : y ≠ h.prev x := fun he => hycm (he ▸ hpm)
    refine ⟨?_, ?_, ?_⟩
    · simp [init, Heap.setNext, Heap.setPrev, Heap.setRoot, upd, h1, h3]
    · simp [init, Heap.setNext, Heap.setPrev, Heap.setRoot, upd, h1, h2]
    · simp only [init, Heap.setNext, Heap.setPrev, Heap.setRoot, upd, h1, if_false, hρ, hycm,
        and_false]

theorem remove_single (h : Heap N) (x : Node N) (hr : Ring h [x]) : remove h x = some h := by
  unfold remove
  rw [if_neg]
  simp only [ne_eq, Decidable.not_not]
  exact hr.2.1.1.symm

end Diminuto.DList
