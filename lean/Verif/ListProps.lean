import Verif.ListLemmas3
import Mathlib.Dynamics.PeriodicPts.Lemmas

/-!
# Properties of the List (C20, C21, C22)

`ListSpec.lean` is the specification; `Ring` and `Rep` (`ListLemmas.lean` and
`ListLemmas3.lean`) say when a heap holds given rings.
-/

namespace Diminuto.DList

variable {N : Nat}

/-- Carry out one operation on the heap: the heap and the pointer returned. -/
def step (h : Heap N) : Op N → Option (Heap N × Option (Node N))
  | .remove x => (remove h x).map (·, some x)
  | .insert p n => (insert h p n).map (·, some n)
  | .replace o n => (replace h o n).map (·, some o)
  | .reroot x => (rerootAll h x).map (·, some x)
  | .cut f t => (cut h f t).map (·, some f)
  | .splice p f => (splice h p f).map (·, some f)
  | .push s n => (push h s n).map (·, some n)
  | .pop s => pop h s
  | .enqueue q n => (enqueue h q n).map (·, some n)
  | .dequeue q => pop h q
  | .head x => some (h, head h x)
  | .tail x => some (h, tail h x)
  | .root x => some (h, some (h.root x))

/-- Carry out a history of operations. -/
def run (h : Heap N) : List (Op N) → Option (Heap N × List (Option (Node N)))
  | [] => some (h, [])
  | o :: os =>
    match step h o with
    | none => none
    | some (h, r) =>
      match run h os with
      | none => none
      | some (h, rs) => some (h, r :: rs)

theorem pop_rep (h : Heap N) (A : Rings N) (s : Node N) (hR : Rep h A) :
    ∃ h', pop h s = some (h', (specStep A (.pop s)).2) ∧ Rep h' (specStep A (.pop s)).1 := by
  have hh := (rep_head_tail hR s).1
  unfold head at hh
  unfold pop
  simp only [specStep]
  by_cases he : isEmpty h (h.root s) = true
  · rw [if_pos he] at hh ⊢
    rw [← hh]
    exact ⟨h, rfl, hR⟩
  · rw [if_neg he] at hh ⊢
    rw [← hh]
    obtain ⟨h', h1, h2⟩ := remove_rep h A (h.next (h.root s)) hR
    refine ⟨h', ?_, h2⟩
    simp only [h1, Option.bind_some]

/-- **C20, C21, C22 (refinement).** Each operation, on a heap that holds the rings `A`, ends,
returns what is specified, and leaves the heap holding the rings specified. -/
theorem list_step_refines (h : Heap N) (A : Rings N) (o : Op N) (hR : Rep h A) :
    ∃ h', step h o = some (h', (specStep A o).2) ∧ Rep h' (specStep A o).1 := by
  cases o with
  | remove x =>
    obtain ⟨h', h1, h2⟩ := remove_rep h A x hR
    exact ⟨h', by simp only [step, h1, Option.map_some, specStep], h2⟩
  | insert p n =>
    obtain ⟨h', h1, h2⟩ := insert_rep h A p n hR
    exact ⟨h', by simp only [step, h1, Option.map_some, specStep], h2⟩
  | replace x n =>
    obtain ⟨h1, e1, r1⟩ := insert_rep h A x n hR
    obtain ⟨h2, e2, r2⟩ := remove_rep h1 _ x r1
    exact ⟨h2, by simp only [step, replace, e1, e2, Option.bind_some, Option.map_some, specStep], r2⟩
  | reroot x =>
    obtain ⟨h', h1, h2⟩ := reroot_rep h A x hR
    exact ⟨h', by simp only [step, h1, Option.map_some, specStep], h2⟩
  | cut f t =>
    obtain ⟨h', h1, h2⟩ := cut_rep h A f t hR
    exact ⟨h', by simp only [step, h1, Option.map_some, specStep], h2⟩
  | splice p f =>
    obtain ⟨h', h1, h2⟩ := splice_rep h A p f hR
    exact ⟨h', by simp only [step, h1, Option.map_some, specStep], h2⟩
  | push s n =>
    obtain ⟨h', h1, h2⟩ := insert_rep h A (h.root s) n hR
    rw [rep_root hR s] at h2
    exact ⟨h', by simp only [step, push, h1, Option.map_some, specStep], h2⟩
  | pop s => exact pop_rep h A s hR
  | enqueue q n =>
    obtain ⟨h', h1, h2⟩ := insert_rep h A (h.prev (h.root q)) n hR
    rw [(rep_head_tail hR q).2.2] at h2
    exact ⟨h', by simp only [step, enqueue, h1, Option.map_some, specStep], h2⟩
  | dequeue q => exact pop_rep h A q hR
  | head x => exact ⟨h, by simp only [step, specStep, (rep_head_tail hR x).1], hR⟩
  | tail x => exact ⟨h, by simp only [step, specStep, (rep_head_tail hR x).2.1], hR⟩
  | root x => exact ⟨h, by simp only [step, specStep, rep_root hR x], hR⟩

/-- **C20, C21, C22 (refinement of histories).** Any history of operations on `N` nodes, for
any `N`, in which nodes may be given as arguments in any way at all, returns what the
specification says and leaves the rings that it says. -/
theorem list_run_refines (h : Heap N) (A : Rings N) (os : List (Op N)) (hR : Rep h A) :
    ∃ h', run h os = some (h', (specRun A os).2) ∧ Rep h' (specRun A os).1 := by
  induction os generalizing h A with
  | nil => exact ⟨h, rfl, hR⟩
  | cons o os ih =>
    obtain ⟨h1, e1, r1⟩ := list_step_refines h A o hR
    obtain ⟨h2, e2, r2⟩ := ih h1 _ r1
    exact ⟨h2, by simp only [run, e1, e2, specRun], r2⟩

theorem list_run_from_fresh (os : List (Op N)) :
    ∃ h', run (fresh N) os = some (h', (specRun (specFresh N) os).2) ∧
      Rep h' (specRun (specFresh N) os).1 :=
  list_run_refines _ _ os (fresh_rep N)

/-! ## C20: well-formed rings -/

/-- Every node's links are mutually inverse, its neighbour has the same root, and following
the next links leads to the root. -/
def WellFormed (h : Heap N) : Prop :=
  ∀ x, h.prev (h.next x) = x ∧ h.next (h.prev x) = x ∧ h.root (h.next x) = h.root x ∧
    ∃ k, h.next^[k] x = h.root x

theorem path_reach (h : Heap N) (l : List (Node N)) : ∀ (a b : Node N), Path h a l b →
    ∃ k, h.next^[k] a = b := by
  induction l with
  | nil => intro a b hp; exact ⟨1, hp.1⟩
  | cons x l ih =>
    intro a b hp
    obtain ⟨k, hk⟩ := ih x b hp.2
    exact ⟨k + 1, by rw [Function.iterate_succ_apply, hp.1.1, hk]⟩

theorem path_last_next (h : Heap N) (l : List (Node N)) : ∀ (a b : Node N), Path h a l b →
    h.next (h.prev b) = b := by
  induction l with
  | nil => intro a b hp; rw [hp.2]; exact hp.1
  | cons x l ih => intro a b hp; exact ih x b hp.2

theorem rep_wellFormed {h : Heap N} {A : Rings N} (hR : Rep h A) : WellFormed h := by
  intro x
  have hx := (ringOf_spec hR x).2
  have hr := rep_ring hR x
  have hroot := ring_root hr x hx
  obtain ⟨a, b, hab, hxa⟩ := List.eq_append_cons_of_mem hx
  have hc : Path h x (b ++ a) x := cyc_at (by rw [← hab]; exact ring_cyc hr)
  have hnm := next_mem hc
  have hrn : h.root (h.next x) = h.root x := by
    have hm : h.next x ∈ ringOf A x := by rw [hab]; exact mem_rotate.mp hnm
    have := ring_root hr _ hm
    rw [hroot] at this
    exact (Option.some.inj this).symm
  refine ⟨?_, path_last_next h _ _ _ hc, hrn, ?_⟩
  · cases hba : b ++ a with
    | nil => rw [hba] at hc; rw [hc.1]; exact hc.2
    | cons c m => rw [hba] at hc; rw [hc.1.1]; exact hc.1.2
  · cases a with
    | nil =>
      rw [hab] at hroot
      exact ⟨0, by simpa using hroot⟩
    | cons r a =>
      rw [hab] at hroot
      simp only [List.cons_append, List.head?_cons, Option.some.injEq] at hroot
      rw [path_append] at hc
      rw [← hroot]
      exact path_reach h b x r hc.1

/-- **C20.** Starting from any number of initialised nodes, after any history of operations
with any arguments, every operation has ended, every node's next and previous links are
mutually inverse, neighbours have the same root, and the root of each node is on its ring. -/
theorem list_well_formed (os : List (Op N)) :
    ∃ h' rs, run (fresh N) os = some (h', rs) ∧ WellFormed h' := by
  obtain ⟨h', h1, h2⟩ := list_run_from_fresh os
  exact ⟨h', _, h1, rep_wellFormed h2⟩

/-- A history with self-insertion, removal of roots, cutting and splicing. -/
example : (run (fresh 5) [.enqueue 0 1, .enqueue 0 2, .push 0 3, .insert 0 0, .enqueue 4 0,
    .cut 1 2, .splice 4 1, .head 4, .tail 2, .pop 0, .root 1, .replace 4 3, .root 0]).map (·.2) =
    some [some 1, some 2, some 3, some 0, some 0, some 1, some 1, some 1, some 0, some 1,
      some 1, some 4, some 3] := by decide

/-- The rings left by a history. -/
example : (specRun (specFresh 5) [.enqueue 0 1, .enqueue 0 2, .push 0 3, .enqueue 4 0]).1 =
    [[4, 0], [3, 1, 2]] := by decide

/-! ## C21: stacks and queues -/

/-- Operations on one list, whose root is fixed. -/
inductive QOp (N : Nat)
  | enqueue (n : Fin N)
  | push (n : Fin N)
  | take

/-- What they do to the sequence of nodes on the list, and what they return; a node that is put on
the list must not be on it already, nor be its root. -/
def qSpec (r : Fin N) : List (Fin N) → List (QOp N) → Option (List (Fin N) × List (Option (Fin N)))
  | l, [] => some (l, [])
  | l, .enqueue n :: os =>
    if n = r ∨ n ∈ l then none else (qSpec r (l ++ [n]) os).map fun p => (p.1, some n :: p.2)
  | l, .push n :: os =>
    if n = r ∨ n ∈ l then none else (qSpec r (n :: l) os).map fun p => (p.1, some n :: p.2)
  | [], .take :: os => (qSpec r [] os).map fun p => (p.1, none :: p.2)
  | n :: l, .take :: os => (qSpec r l os).map fun p => (p.1, some n :: p.2)

/-- The operation of the interface for each. -/
def QOp.op (r : Fin N) : QOp N → Op N
  | .enqueue n => .enqueue r n
  | .push n => .push r n
  | .take => .pop r

theorem insertAfter_last (r n : Node N) (l : List (Node N)) (hnd : (r :: l).Nodup) :
    insertAfter ((r :: l).getLast (by simp)) [n] (r :: l) = r :: (l ++ [n]) := by
  have hsplit := List.dropLast_append_getLast (l := r :: l) (by simp)
  generalize hz : (r :: l).getLast (by simp) = z at hsplit ⊢
  rw [← hsplit] at hnd ⊢
  have hzd : z ∉ (r :: l).dropLast := by
    rw [List.nodup_append] at hnd
    exact fun hm => hnd.2.2 z hm z (by simp) rfl
  rw [insertAfter_eq z [n] [] _ hzd]
  have : (r :: l).dropLast ++ z :: ([n] ++ []) = ((r :: l).dropLast ++ [z]) ++ [n] := by simp
  rw [this, hsplit]
  rfl

theorem ringOf_specRemove {h : Heap N} {A : Rings N} (hR : Rep h A) (n : Node N)
    {l : List (Node N)} (hl : l ∈ A) (hn : n ∉ l) : l ∈ specRemove A n := by
  unfold specRemove
  have hne : l ≠ ringOf A n := by
    rintro rfl
    exact hn (ringOf_spec hR n).2
  by_cases hs : ringOf A n = [n]
  · simp only [hs, if_true]; exact hl
  · simp only [hs, if_false, List.mem_cons]
    exact Or.inr (Or.inr ((List.mem_erase_of_ne hne).mpr hl))

theorem mem_specInsert {h : Heap N} {A : Rings N} (hR : Rep h A) (p n : Node N)
    {l : List (Node N)} (hl : l ∈ A) (hp : p ∈ l) (hn : n ∉ l) :
    insertAfter p [n] l ∈ specInsert A p n := by
  obtain ⟨h1, _, hR1⟩ := remove_rep h A n hR
  have hl' := ringOf_specRemove hR n hl hn
  have hpn : p ≠ n := by rintro rfl; exact hn hp
  unfold specInsert
  simp only [hpn, if_false]
  rw [ringOf_eq hR1 hl' hp]
  simp

/-- **C21.** On a list of which `r` is the root and `l` the other nodes, among any number of other
lists, and for any sequence of enqueuing, pushing and taking nodes in which each node put on
the list is not already on it (it may be on another): nodes are put at the end or at the
start, taken from the start, null is returned when there are none, and the list holds exactly
the nodes it should. -/
theorem list_queue_refines_partial (r : Node N) (os : List (QOp N)) :
    ∀ (h : Heap N) (A : Rings N) (l : List (Node N)), Rep h A → r :: l ∈ A →
      ∀ (l' : List (Node N)) (rs : List (Option (Node N))), qSpec r l os = some (l', rs) →
      ∃ h', run h (os.map (QOp.op r)) = some (h', rs) ∧ Ring h' (r :: l') := by
  induction os with
  | nil =>
    intro h A l hR hl l' rs hq
    simp only [qSpec, Option.some.injEq, Prod.mk.injEq] at hq
    obtain ⟨rfl, rfl⟩ := hq
    exact ⟨h, rfl, hR.1 _ hl⟩
  | cons o os ih =>
    intro h A l hR hl l' rs hq
    obtain ⟨h1, e1, r1⟩ := list_step_refines h A (o.op r) hR
    have hring := hR.1 _ hl
    have hrl : ringOf A r = r :: l := ringOf_eq hR hl (by simp)
    -- the list after the operation, and what the operation returns
    obtain ⟨m, v, rs', hm, hv, hq', hrs⟩ : ∃ m v rs', r :: m ∈ (specStep A (o.op r)).1 ∧
        (specStep A (o.op r)).2 = v ∧ qSpec r m os = some (l', rs') ∧ rs = v :: rs' := by
      cases o with
      | enqueue n =>
        simp only [qSpec] at hq
        split at hq
        · simp at hq
        · rename_i hn
          rw [not_or] at hn
          rw [Option.map_eq_some_iff] at hq
          obtain ⟨⟨q1, q2⟩, hq1, hq2⟩ := hq
          simp only [Prod.mk.injEq] at hq2
          obtain ⟨rfl, rfl⟩ := hq2
          refine ⟨l ++ [n], some n, q2, ?_, rfl, hq1, rfl⟩
          have hlast : (ringOf A r).getLastD r = (r :: l).getLast (by simp) := by
            rw [hrl]; simp [List.getLastD_eq_getLast?, List.getLast?_eq_some_getLast]
          simp only [QOp.op, specStep, hlast]
          have := mem_specInsert hR ((r :: l).getLast (by simp)) n hl (List.getLast_mem _)
            (by simp [hn.1, hn.2])
          rwa [insertAfter_last r n l hring.1] at this
      | push n =>
        simp only [qSpec] at hq
        split at hq
        · simp at hq
        · rename_i hn
          rw [not_or] at hn
          rw [Option.map_eq_some_iff] at hq
          obtain ⟨⟨q1, q2⟩, hq1, hq2⟩ := hq
          simp only [Prod.mk.injEq] at hq2
          obtain ⟨rfl, rfl⟩ := hq2
          refine ⟨n :: l, some n, q2, ?_, rfl, hq1, rfl⟩
          have hroot : specRoot A r = r := by unfold specRoot; rw [hrl]; rfl
          simp only [QOp.op, specStep, hroot]
          have := mem_specInsert hR r n hl (by simp) (by simp [hn.1, hn.2])
          simpa [insertAfter] using this
      | take =>
        cases l with
        | nil =>
          simp only [qSpec, Option.map_eq_some_iff] at hq
          obtain ⟨⟨q1, q2⟩, hq1, hq2⟩ := hq
          simp only [Prod.mk.injEq] at hq2
          obtain ⟨rfl, rfl⟩ := hq2
          refine ⟨[], none, q2, ?_, ?_, hq1, rfl⟩
          · simp only [QOp.op, specStep, specHead, hrl, List.tail_cons, List.head?_nil]
            exact hl
          · simp only [QOp.op, specStep, specHead, hrl, List.tail_cons, List.head?_nil]
        | cons n l =>
          simp only [qSpec, Option.map_eq_some_iff] at hq
          obtain ⟨⟨q1, q2⟩, hq1, hq2⟩ := hq
          simp only [Prod.mk.injEq] at hq2
          obtain ⟨rfl, rfl⟩ := hq2
          have hrn : r ≠ n := by
            rintro rfl
            have := hring.1
            simp at this
          have hrn' : ringOf A n = r :: n :: l := ringOf_eq hR hl (by simp)
          refine ⟨l, some n, q2, ?_, ?_, hq1, rfl⟩
          · simp only [QOp.op, specStep, specHead, hrl, List.tail_cons, List.head?_cons]
            unfold specRemove
            rw [hrn']
            simp [hrn]
          · simp only [QOp.op, specStep, specHead, hrl, List.tail_cons, List.head?_cons]
    subst hrs
    obtain ⟨h2, e2, r2⟩ := ih h1 _ m r1 hm l' rs' hq'
    refine ⟨h2, ?_, r2⟩
    simp only [List.map_cons, run, e1, e2, hv]

theorem qSpec_enqueues (r : Node N) (xs : List (Node N)) : ∀ (l : List (Node N)),
    (l ++ xs).Nodup → r ∉ xs → ∀ os,
    qSpec r l (xs.map QOp.enqueue ++ os) =
      (qSpec r (l ++ xs) os).map fun p => (p.1, xs.map some ++ p.2) := by
  induction xs with
  | nil => intro l _ _ os; simp
  | cons x xs ih =>
    intro l hnd hr os
    have hxr : x ≠ r := fun he => hr (by simp [he])
    have hxl : x ∉ l := fun hm => by
      rw [List.nodup_append] at hnd
      exact hnd.2.2 x hm x (by simp) rfl
    have := ih (l ++ [x]) (by simpa using hnd) (fun hm => hr (by simp [hm])) os
    simp only [List.map_cons, List.cons_append, qSpec, hxr, hxl, or_self, if_false, this,
      Option.map_map]
    simp [Function.comp_def]

theorem qSpec_takes (r : Node N) (xs : List (Node N)) :
    qSpec r xs (List.replicate xs.length QOp.take) = some ([], xs.map some) := by
  induction xs with
  | nil => rfl
  | cons x xs ih => simp [List.replicate_succ, qSpec, ih]

theorem qSpec_pushes (r : Node N) (xs : List (Node N)) : ∀ (l : List (Node N)),
    (xs ++ l).Nodup → r ∉ xs → ∀ os,
    qSpec r l (xs.map QOp.push ++ os) =
      (qSpec r (xs.reverse ++ l) os).map fun p => (p.1, xs.map some ++ p.2) := by
  induction xs with
  | nil => intro l _ _ os; simp
  | cons x xs ih =>
    intro l hnd hr os
    have hxr : x ≠ r := fun he => hr (by simp [he])
    have hxl : x ∉ l := fun hm => by
      rw [List.nodup_append] at hnd
      exact hnd.2.2 x (by simp) x hm rfl
    have hnd' : (xs ++ x :: l).Nodup := (List.perm_middle.nodup_iff).mpr (by simpa using hnd)
    have := ih (x :: l) hnd' (fun hm => hr (by simp [hm])) os
    simp only [List.map_cons, List.cons_append, qSpec, hxr, hxl, or_self, if_false, this,
      Option.map_map]
    simp [Function.comp_def]

/-- **C21 (first in first out).** Distinct nodes enqueued on an empty list are dequeued in the
same order, whatever other lists they were on before, and then the list is empty. -/
theorem list_fifo (h : Heap N) (A : Rings N) (r : Node N) (hR : Rep h A) (hr : [r] ∈ A)
    (xs : List (Node N)) (hnd : xs.Nodup) (hrx : r ∉ xs) :
    ∃ h', run h (xs.map (Op.enqueue r) ++ List.replicate xs.length (Op.pop r)) =
      some (h', xs.map some ++ xs.map some) ∧ Ring h' [r] := by
  have hq : qSpec r [] (xs.map QOp.enqueue ++ List.replicate xs.length QOp.take) =
      some ([], xs.map some ++ xs.map some) := by
    rw [qSpec_enqueues r xs [] (by simpa using hnd) hrx, List.nil_append, qSpec_takes]
    rfl
  have := list_queue_refines_partial r _ h A [] hR hr _ _ hq
  rw [List.map_append, List.map_map, List.map_replicate] at this
  exact this

/-- **C21 (last in first out).** Distinct nodes pushed on an empty list are popped in reverse. -/
theorem list_lifo (h : Heap N) (A : Rings N) (r : Node N) (hR : Rep h A) (hr : [r] ∈ A)
    (xs : List (Node N)) (hnd : xs.Nodup) (hrx : r ∉ xs) :
    ∃ h', run h (xs.map (Op.push r) ++ List.replicate xs.length (Op.pop r)) =
      some (h', xs.map some ++ xs.reverse.map some) ∧ Ring h' [r] := by
  have hq : qSpec r [] (xs.map QOp.push ++ List.replicate xs.length QOp.take) =
      some ([], xs.map some ++ xs.reverse.map some) := by
    rw [qSpec_pushes r xs [] (by simpa using hnd) hrx, List.append_nil]
    have := qSpec_takes r xs.reverse
    rw [List.length_reverse] at this
    rw [this]
    rfl
  have := list_queue_refines_partial r _ h A [] hR hr _ _ hq
  rw [List.map_append, List.map_map, List.map_replicate] at this
  exact this

/-- **C21 (removal).** A node that is taken or removed is afterwards on no list: both its links
and its root are itself, and no other node points to it. -/
theorem list_removed_alone (h : Heap N) (A : Rings N) (x : Node N) (hR : Rep h A) :
    ∃ h', remove h x = some h' ∧ h'.next x = x ∧ h'.prev x = x ∧ h'.root x = x ∧
      ∀ y, y ≠ x → h'.next y ≠ x ∧ h'.prev y ≠ x ∧ h'.root y ≠ x := by
  obtain ⟨h', h1, hR'⟩ := remove_rep h A x hR
  have hx := hR'.1 _ (mem_specRemove hR x)
  have n1 : h'.next x = x := hx.2.1.1
  have n2 : h'.prev x = x := hx.2.1.2
  refine ⟨h', h1, n1, n2, hx.2.2 x (by simp), ?_⟩
  intro y hy
  have wf := rep_wellFormed hR' y
  refine ⟨?_, ?_, ?_⟩
  · intro he
    have := wf.1
    rw [he, n2] at this
    exact hy this.symm
  · intro he
    have := wf.2.1
    rw [he, n1] at this
    exact hy this.symm
  · intro he
    have h2 := ring_root (rep_ring hR' y) y (ringOf_spec hR' y).2
    have h3 := List.mem_of_mem_head? h2
    rw [he] at h3
    have := rep_unique hR' (ringOf_spec hR' y).1 (mem_specRemove hR x) h3 (by simp)
    have h4 := (ringOf_spec hR' y).2
    rw [this] at h4
    exact hy (by simpa using h4)

/-- Taking from an empty list returns null and changes nothing. -/
theorem list_take_empty (h : Heap N) (A : Rings N) (r : Node N) (hR : Rep h A) (hr : [r] ∈ A) :
    pop h r = some (h, none) := by
  have hring := hR.1 _ hr
  have h1 : h.root r = r := hring.2.2 r (by simp)
  have h2 : h.next r = r := hring.2.1.1
  unfold pop isEmpty
  simp [h1, h2]

/-- Three nodes of another list moved to a queue and dequeued. -/
example : Rep (fresh 6) (specFresh 6) ∧ [(0 : Fin 6)] ∈ specFresh 6 ∧
    (run (fresh 6) [.push 5 1, .push 5 2, .push 5 3, .enqueue 0 1, .enqueue 0 2, .enqueue 0 3,
      .pop 0, .pop 0, .pop 0, .pop 0]).map (·.2) =
    some [some 1, some 2, some 3, some 1, some 2, some 3, some 1, some 2, some 3, none] :=
  ⟨fresh_rep 6, by decide, by decide⟩

/-- **Finding.** Enqueuing a node that is already the last of the queue takes it off the queue
instead of leaving it at the end: `diminuto_list_enqueue` inserts it after the last node, which is
itself.  The documentation says that a node already on a list is first removed from it and
then inserted. -/
theorem list_enqueue_tail_counterexample :
    (run (fresh 3) [.enqueue 0 1, .enqueue 0 2, .enqueue 0 2, .pop 0, .pop 0]).map (·.2) =
      some [some 1, some 2, some 2, some 1, none] := by decide

/-! ## C22: cutting and splicing -/

/-- **C22 (cut).** Cutting the nodes from `f` through `t` out of a ring leaves two rings: one of
exactly those nodes in order, of which `f` is the root, and one of exactly the others in
order, with its root unchanged if it is among them and otherwise the node that followed `t`. -/
theorem list_cut_exact (h : Heap N) (A : Rings N) (r f t c : Node N) (l s e : List (Node N))
    (hR : Rep h A) (hl : r :: l ∈ A) (hf : f ∈ r :: l)
    (hrot : rotateTo f (r :: l) = f :: (s ++ t :: c :: e)) :
    ∃ h', cut h f t = some h' ∧ Ring h' (f :: (s ++ [t])) ∧
      (r ∈ f :: (s ++ [t]) → Ring h' (c :: e)) ∧
      (r ∉ f :: (s ++ [t]) → Ring h' (rotateTo r (c :: e))) := by
  have hr := hR.1 _ hl
  obtain ⟨h', h1, h2, h3, _⟩ := cut_spec h (r :: l) f t c s e hr hf hrot
  rw [hr.2.2 f hf] at h3
  refine ⟨h', h1, h2, fun hin => by rwa [if_pos hin] at h3, fun hin => by rwa [if_neg hin] at h3⟩

/-- **C22 (splice).** Splicing the ring `f :: w`, rooted anywhere, in after the node `p` of another
ring `a ++ p :: b` gives the ring `a ++ p :: f :: w ++ b`; every node of it reports the root of
the destination, which is its first; no other node is affected. -/
theorem list_splice_exact (h : Heap N) (A : Rings N) (a b k w : List (Node N)) (p f : Node N)
    (hR : Rep h A) (hl : a ++ p :: b ∈ A) (hk : k ∈ A) (hf : f ∈ k) (hne : a ++ p :: b ≠ k)
    (hrot : rotateTo f k = f :: w) :
    ∃ h', splice h p f = some h' ∧ Ring h' (a ++ p :: (f :: w ++ b)) ∧
      (∀ y ∈ a ++ p :: (f :: w ++ b), h'.root y = h.root p) ∧
      ∀ y, y ∉ a ++ p :: b → y ∉ k →
        h'.next y = h.next y ∧ h'.prev y = h.prev y ∧ h'.root y = h.root y := by
  have hdis : ∀ y ∈ a ++ p :: b, y ∉ k := fun y hy hm => hne (rep_unique hR hl hk hy hm)
  obtain ⟨h', h1, h2, h3⟩ := splice_spec h _ k p f (hR.1 _ hl) (by simp) (hR.1 _ hk) hf hdis
  have hnd := ring_nodup (hR.1 _ hl)
  have hpa : p ∉ a := by
    rw [List.nodup_append] at hnd
    exact fun hm => hnd.2.2 p hm p (by simp) rfl
  rw [insertAfter_eq p _ b a hpa, hrot] at h2
  refine ⟨h', h1, h2, ?_, h3⟩
  intro y hy
  have hroot := ring_root (hR.1 _ hl) p (by simp)
  have hroot' := ring_root h2 y hy
  have : (a ++ p :: (f :: w ++ b)).head? = (a ++ p :: b).head? := by cases a <;> rfl
  rw [this, hroot] at hroot'
  exact (Option.some.inj hroot').symm

/-- **C22 (cut and splice).** Cutting the nodes from `f` through `t` out of one ring and splicing
them into another after `p` moves exactly those nodes, in order, between `p` and what
followed it; no node is lost or duplicated. -/
theorem list_cut_splice (h : Heap N) (A : Rings N) (r f t c p : Node N)
    (l s e a b : List (Node N)) (hR : Rep h A) (hl : r :: l ∈ A) (hf : f ∈ r :: l)
    (hrot : rotateTo f (r :: l) = f :: (s ++ t :: c :: e)) (hd : a ++ p :: b ∈ A)
    (hne : a ++ p :: b ≠ r :: l) :
    ∃ h' h'', cut h f t = some h' ∧ splice h' p f = some h'' ∧
      Ring h'' (a ++ p :: (f :: (s ++ [t]) ++ b)) ∧
      Ring h'' (if r ∈ f :: (s ++ [t]) then c :: e else rotateTo r (c :: e)) := by
  have hr := hR.1 _ hl
  obtain ⟨h', h1, h2, h3, h4⟩ := cut_spec h (r :: l) f t c s e hr hf hrot
  rw [hr.2.2 f hf] at h3
  have hdl : ∀ y ∈ a ++ p :: b, y ∉ r :: l := fun y hy hm => hne (rep_unique hR hd hl hy hm)
  have hd' : Ring h' (a ++ p :: b) :=
    ring_frame h h' _ (fun y hy => h4 y (hdl y hy)) (hR.1 _ hd)
  have hmem : ∀ y, y ∈ r :: l ↔ y ∈ f :: (s ++ t :: c :: e) := by
    intro y; rw [← hrot, (rotateTo_perm f (r :: l)).mem_iff]
  have hnd : (f :: (s ++ t :: c :: e)).Nodup := by
    rw [← hrot, (rotateTo_perm f (r :: l)).nodup_iff]; exact hr.1
  have hseg : ∀ y ∈ f :: (s ++ [t]), y ∈ r :: l := by
    intro y hy
    rw [hmem]
    simp only [List.mem_cons, List.mem_append, List.not_mem_nil, or_false] at hy ⊢
    rcases hy with h | h | h
    · exact Or.inl h
    · exact Or.inr (Or.inl h)
    · exact Or.inr (Or.inr (Or.inl h))
  have hdis : ∀ y ∈ a ++ p :: b, y ∉ f :: (s ++ [t]) := fun y hy hm => hdl y hy (hseg y hm)
  obtain ⟨h'', g1, g2, g3⟩ := splice_spec h' _ _ p f hd' (by simp) h2 (by simp) hdis
  have hpa : p ∉ a := by
    have := ring_nodup hd'
    rw [List.nodup_append] at this
    exact fun hm => this.2.2 p hm p (by simp) rfl
  have hrf : rotateTo f (f :: (s ++ [t])) = f :: (s ++ [t]) := by
    have := rotateTo_eq f [] (s ++ [t]) (by simp)
    simpa using this
  rw [insertAfter_eq p _ b a hpa, hrf] at g2
  refine ⟨h', h'', h1, g1, g2, ?_⟩
  refine ring_frame h' h'' _ ?_ h3
  intro y hy
  have hyce : y ∈ c :: e := by
    split at hy
    · exact hy
    · exact (rotateTo_perm r (c :: e)).mem_iff.mp hy
  have hyl : y ∈ r :: l := by
    rw [hmem]
    simp only [List.mem_cons, List.mem_append] at hyce ⊢
    exact Or.inr (Or.inr (Or.inr hyce))
  refine g3 y (fun hm => hdl y hm hyl) ?_
  intro hm
  have hperm : (f :: (s ++ t :: c :: e)) = (f :: (s ++ [t])) ++ (c :: e) := by simp
  rw [hperm, List.nodup_append] at hnd
  exact hnd.2.2 y hm y hyce rfl

/-- The nodes 2, 0 and 1 of the ring 0, 1, 3, 2 are moved to another list; the root 0 is among them,
so what remains is rooted at 3. -/
example : (specRun (specFresh 7) [.enqueue 0 1, .enqueue 0 3, .enqueue 0 2, .enqueue 4 5,
    .enqueue 4 6, .cut 2 1, .splice 5 2]).1 = [[4, 5, 2, 0, 1, 6], [3]] ∧
    rotateTo (2 : Fin 7) [0, 1, 3, 2] = [2] ++ [0] ++ 1 :: 3 :: [] := by decide

end Diminuto.DList
