import Verif.TreeAudit2

/-!
# Properties of the Tree and Store modules

A heap has `N` nodes and `M` root pointers, for any `N` and `M`.  Each theorem about `Reach h` holds
after any number of calls, in any order, that insert, remove and replace any nodes in any of the
trees, in particular with any comparator.
-/

namespace Diminuto.Tree

open T

variable {N M : Nat} {h : Heap N M}

/-! ## Examples used below -/

/-- Nodes compared as numbers. -/
def byNumber {N : Nat} (a b : Fin N) : Int := (a : Int) - b

theorem byNumber_isOrder : IsOrder (byNumber (N := N)) :=
  ⟨fun a => by simp [byNumber], fun a b => by simp only [byNumber]; omega,
    fun a b c => by simp only [byNumber]; omega⟩

/-- A history that inserts in ascending order, which makes the code rebalance, and then removes. -/
def sample : List (StoreOp 7 1) :=
  [.put 0 0 false, .put 0 1 false, .put 0 2 false, .put 0 3 false, .put 0 4 false, .put 0 5 false,
    .put 0 2 false, .find 0 3, .remove 3, .find 0 3, .remove 3]

/-! ## C24: the trees stay red-black -/

/-- After any calls, each root pointer leads to a red-black tree whose nodes are the ones
that have that root pointer, and the height is at most `2 log2(n + 1)`. -/
theorem tree_redblack (hr : Reach h) (rt : Fin M) :
    ∃ t : T N, Holds h rt t ∧ t.RedBlack ∧ 2 ^ t.height ≤ (t.inorder.length + 1) ^ 2 ∧
      ∀ x, x ∈ t.inorder ↔ (h.cell x).root = some rt := by
  obtain ⟨ts, R⟩ := hr.rep
  have hrb : (ts rt).RedBlack := rb_redblack.mpr ⟨(R.tr rt).rb, (R.tr rt).black⟩
  exact ⟨ts rt, (R.tr rt).holds, hrb, redblack_height hrb, fun x => R.mem_iff⟩

/-- No call goes through a null pointer or loops forever, provided that a node is not inserted next
to a node that is not on a tree. -/
theorem tree_defined (hr : Reach h) (op : Op N M) (hl : op.Legal h) : ∃ h' r, op.step h = some (h', r) := by
  obtain ⟨ts, R⟩ := hr.rep
  obtain ⟨⟨h', r⟩, e⟩ := Option.ne_none_iff_exists'.mp ((R.step op).2 hl)
  exact ⟨h', r, e⟩

/-- The precondition is needed: next to a node that is not on a tree, inserting a node that is not on
a tree goes through a null pointer. -/
theorem tree_insert_orphan (hr : Reach h) (x p : Fin N) (hx : (h.cell x).root = none)
    (hp : (h.cell p).root = none) :
    (Op.insertLeft x p).step h = none ∧ (Op.insertRight x p).step h = none := by
  obtain ⟨ts, R⟩ := hr.rep
  simp only [Op.step]
  rw [insertLeft_orphan R hp, insertRight_orphan R hp, if_pos hx]
  exact ⟨rfl, rfl⟩

example : ∃ h : Heap 7 1, ∃ rs, codeRun (fun _ => byNumber) (fresh 7 1) sample = some (h, rs) ∧
    h.top 0 = some 1 ∧ (h.cell 4).parent = some 1 ∧ (h.cell 4).left = some 2 := by
  refine ⟨_, _, rfl, ?_⟩
  decide

example : Reach (fresh 7 1) ∧ (Op.insertRoot 3 0 : Op 7 1).Legal (fresh 7 1) := ⟨.fresh, trivial⟩

/-! ## C25: the store is a finite map -/

variable {cmp : Fin M → Fin N → Fin N → Int}

/-- Starting with empty stores, any number of insertions, replacements, removals and lookups in any of
the stores returns what the same calls return that only keep, for each node, the store that it is
in; and afterwards the nodes are in the same stores. -/
theorem store_refines (hc : ∀ rt, IsOrder (cmp rt)) (ops : List (StoreOp N M)) :
    ∃ h, codeRun cmp (fresh N M) ops = some (h, (specRun cmp (fun _ => none) ops).2) ∧
      ∀ x, (h.cell x).root = (specRun cmp (fun _ => none) ops).1 x := by
  obtain ⟨h', ts', e, S⟩ := Sto.fresh.run hc ops
  exact ⟨h', e, S.own⟩

/-- No two nodes in a store have the same key, so that there is at most one to be found. -/
theorem store_keys_distinct (hc : ∀ rt, IsOrder (cmp rt)) (ops : List (StoreOp N M)) (rt : Fin M) (a b : Fin N)
    (ha : (specRun cmp (fun _ => none) ops).1 a = some rt) (hb : (specRun cmp (fun _ => none) ops).1 b = some rt)
    (hab : cmp rt a b = 0) : a = b := by
  obtain ⟨h', ts', e, S⟩ := Sto.fresh.run hc ops
  by_contra hne
  have hs := S.sorted rt
  have h1 := S.mem.mpr ha
  have h2 := S.mem.mpr hb
  have key : ∀ L : List (Fin N), L.Pairwise (fun a b => cmp rt a b < 0) → a ∈ L → b ∈ L →
      cmp rt a b < 0 ∨ cmp rt b a < 0 := by
    intro L hL ha hb
    induction hL with
    | nil => simp at ha
    | cons hd _ ih =>
      simp only [List.mem_cons] at ha hb
      rcases ha with rfl | ha <;> rcases hb with rfl | hb
      · exact absurd rfl hne
      · exact Or.inl (hd b hb)
      · exact Or.inr (hd a ha)
      · exact ih ha hb
  rcases key _ hs h1 h2 with h3 | h3
  · omega
  · have := ((hc rt).flip b a).mp h3
    omega

example : (codeRun (fun _ => byNumber) (fresh 7 1) sample).map (·.2) =
    some [some 0, some 1, some 2, some 3, some 4, some 5, none, some 3, some 3, none, none] := by
  decide

/-- `diminuto_store_replace` is documented to return null if there is no match,
`Diminuto/inc/com/diag/diminuto/diminuto_store.h:263-272`.  It returns the new node. -/
theorem store_replace_null_counterexample :
    ¬ ∀ (N M : Nat) (cmp : Fin M → Fin N → Fin N → Int) (rt : Fin M) (x : Fin N), (∀ rt, IsOrder (cmp rt)) →
      (codeRun cmp (fresh N M) [.put rt x true]).map (·.2) = some [none] := by
  intro hall
  have := hall 1 1 (fun _ => byNumber) 0 0 (fun _ => byNumber_isOrder)
  revert this
  decide

/-! ### What the map does, for each call -/

/-- After a node has been put in, it is found; other keys find what they found before. -/
theorem store_put_find (hc : ∀ rt, IsOrder (cmp rt)) (own : Owner N M) (rt : Fin M) (x q : Fin N)
    (hx : own x = none)
    (hu : ∀ a b, own a = some rt → own b = some rt → cmp rt a b = 0 → a = b) :
    lookup cmp ((StoreOp.put rt x true).spec cmp own).1 rt q =
      if cmp rt x q = 0 then some x else lookup cmp own rt q := by
  have heq : ∀ a b c, cmp rt a b = 0 → cmp rt b c = 0 → cmp rt a c = 0 := by
    intro a b c h1 h2
    have t1 := (hc rt).trans a b c (by omega) (by omega)
    have f1 := (hc rt).flip a b
    have f2 := (hc rt).flip b c
    have f3 := (hc rt).flip b a
    have f4 := (hc rt).flip c b
    have f5 := (hc rt).flip a c
    have t2 := (hc rt).trans c b a (by omega) (by omega)
    omega
  have hsym : ∀ a b, cmp rt a b = 0 → cmp rt b a = 0 := by
    intro a b h1
    have f1 := (hc rt).flip a b
    have f3 := (hc rt).flip b a
    omega
  -- who is in the store afterwards
  have mem : ∀ n, ((StoreOp.put rt x true).spec cmp own).1 n = some rt ↔
      n = x ∨ (own n = some rt ∧ cmp rt n x ≠ 0) := by
    intro n
    simp only [StoreOp.spec, hx, ne_eq, not_true_eq_false, if_false]
    cases hl : lookup cmp own rt x with
    | none =>
      simp only []
      by_cases hn : n = x
      · subst hn; simp
      · rw [Function.update_of_ne hn]
        simp only [hn, false_or]
        refine ⟨fun ho => ⟨ho, fun h0 => ?_⟩, fun h => h.1⟩
        unfold lookup at hl
        rw [List.find?_eq_none] at hl
        exact hl n (List.mem_finRange n) (by simp [ho, h0])
    | some y =>
      unfold lookup at hl
      have hy := List.find?_some hl
      simp only [Bool.and_eq_true, decide_eq_true_eq] at hy
      simp only [if_true]
      by_cases hn : n = x
      · subst hn; simp
      · rw [Function.update_of_ne hn]
        simp only [hn, false_or]
        by_cases hny : n = y
        · subst hny; simp [hy.2]
        · rw [Function.update_of_ne hny]
          refine ⟨fun ho => ⟨ho, fun h0 => ?_⟩, fun h => h.1⟩
          exact hny (hu n y ho hy.1 (heq n x y h0 (hsym y x hy.2)))
  by_cases hq : cmp rt x q = 0
  · rw [if_pos hq]
    cases hl : lookup cmp ((StoreOp.put rt x true).spec cmp own).1 rt q with
    | none =>
      unfold lookup at hl
      rw [List.find?_eq_none] at hl
      exact absurd (by simp [(mem x).mpr (Or.inl rfl), hq]) (hl x (List.mem_finRange x))
    | some m =>
      unfold lookup at hl
      have hm := List.find?_some hl
      simp only [Bool.and_eq_true, decide_eq_true_eq] at hm
      rcases (mem m).mp hm.1 with rfl | h1
      · rfl
      · exact absurd (heq m q x hm.2 (hsym x q hq)) h1.2
  · rw [if_neg hq]
    unfold lookup
    congr 1
    funext n
    by_cases h0 : cmp rt n q = 0
    · simp only [h0, decide_true, Bool.and_true]
      have : ((StoreOp.put rt x true).spec cmp own).1 n = some rt ↔ own n = some rt := by
        rw [mem n]
        constructor
        · rintro (rfl | h1)
          · exact absurd h0 hq
          · exact h1.1
        · intro h1
          exact Or.inr ⟨h1, fun h2 => hq (heq x n q (hsym n x h2) h0)⟩
      simp [this]
    · simp [h0]

example : lookup (N := 4) (M := 1) (fun _ a b => ((a : Int) / 2) - (b : Int) / 2)
    ((StoreOp.put 0 3 true).spec (fun _ a b => ((a : Int) / 2) - (b : Int) / 2)
      (fun x => if x = 2 then some 0 else none)).1 0 2 = some 3 := by
  decide

/-- After a node has been removed, its key finds nothing, and the other keys what they found
before. -/
theorem store_remove_find (hc : ∀ rt, IsOrder (cmp rt)) (own : Owner N M) (rt : Fin M) (x q : Fin N)
    (hx : own x = some rt)
    (hu : ∀ a b, own a = some rt → own b = some rt → cmp rt a b = 0 → a = b) :
    lookup cmp ((StoreOp.remove x).spec cmp own).1 rt q =
      if cmp rt x q = 0 then none else lookup cmp own rt q := by
  have heq : ∀ a b c, cmp rt a b = 0 → cmp rt c b = 0 → cmp rt a c = 0 := by
    intro a b c h1 h2
    have f1 := (hc rt).flip a b
    have f2 := (hc rt).flip b c
    have f3 := (hc rt).flip b a
    have f4 := (hc rt).flip c b
    have f5 := (hc rt).flip a c
    have t1 := (hc rt).trans a b c (by omega) (by omega)
    have t2 := (hc rt).trans c b a (by omega) (by omega)
    omega
  simp only [StoreOp.spec, hx, reduceCtorEq, if_false]
  unfold lookup
  by_cases hq : cmp rt x q = 0
  · rw [if_pos hq, List.find?_eq_none]
    intro n _ hn
    simp only [Bool.and_eq_true, decide_eq_true_eq] at hn
    by_cases hnx : n = x
    · subst hnx; simp at hn
    · rw [Function.update_of_ne hnx] at hn
      exact hnx (hu n x hn.1 hx (heq n q x hn.2 hq))
  · rw [if_neg hq]
    congr 1
    funext n
    by_cases hnx : n = x
    · subst hnx; simp [hq]
    · rw [Function.update_of_ne hnx]

/-! ## C26: iteration -/

/-- After any calls, going from the first node to the next until there is none visits the nodes that
are on the tree, each once, and going from the last to the previous one visits them in the
reverse order. -/
theorem tree_iterate (hr : Reach h) (rt : Fin M) :
    ∃ l : List (Fin N), forward h rt = some l ∧ backward h rt = some l.reverse ∧ l.Nodup ∧
      ∀ x, x ∈ l ↔ (h.cell x).root = some rt := by
  obtain ⟨ts, R⟩ := hr.rep
  have hh := (R.tr rt).holds
  exact ⟨_, forward_spec hh, backward_spec hh, hh.2.2, fun x => R.mem_iff⟩

/-- In a store, they are visited in ascending order. -/
theorem store_iterate (hc : ∀ rt, IsOrder (cmp rt)) (ops : List (StoreOp N M)) {h : Heap N M}
    {rs : List (Option (Fin N))} (hr : codeRun cmp (fresh N M) ops = some (h, rs)) (rt : Fin M) :
    ∃ l : List (Fin N), forward h rt = some l ∧ backward h rt = some l.reverse ∧
      (l.Pairwise fun a b => cmp rt a b < 0) ∧
      ∀ x, x ∈ l ↔ (specRun cmp (fun _ => none) ops).1 x = some rt := by
  obtain ⟨h', ts', e, S⟩ := Sto.fresh.run hc ops
  rw [e] at hr
  simp only [Option.some.injEq, Prod.mk.injEq] at hr
  obtain ⟨rfl, _⟩ := hr
  have hh := (S.rep.tr rt).holds
  exact ⟨_, forward_spec hh, backward_spec hh, S.sorted rt, fun x => S.mem⟩

/-- Removing a node leaves the others, in the same order; the other trees are not changed. -/
theorem tree_remove_order (hr : Reach h) {h' : Heap N M} {r : Option (Fin N)} (x : Fin N)
    (e : remove h x = some (h', r)) (rt : Fin M) :
    ∃ l, forward h rt = some l ∧ forward h' rt = some (l.erase x) := by
  obtain ⟨ts, R⟩ := hr.rep
  refine ⟨_, forward_spec (R.tr rt).holds, ?_⟩
  rcases R.remove x with ⟨rt', h'', t', e1, e2, e3, R'⟩ | ⟨e1, e2⟩
  · rw [e2] at e
    simp only [Option.some.injEq, Prod.mk.injEq] at e
    obtain ⟨rfl, _⟩ := e
    rw [forward_spec (R'.tr rt).holds]
    by_cases hrt : rt = rt'
    · subst hrt; simp [e3]
    · rw [Function.update_of_ne hrt, List.erase_of_not_mem]
      rw [R.mem_iff, e1]
      simpa using fun he => hrt he.symm
  · rw [e2] at e
    simp only [Option.some.injEq, Prod.mk.injEq] at e
    obtain ⟨rfl, _⟩ := e
    rw [forward_spec (R.tr rt).holds, List.erase_of_not_mem]
    rw [R.mem_iff, e1]
    simp

/-- Replacing a node puts the new one in its place. -/
theorem tree_replace_order (hr : Reach h) (x y : Fin N) (rt : Fin M) (hx : (h.cell x).root = some rt)
    (hy : (h.cell y).root = none) :
    ∃ A B, forward h rt = some (A ++ x :: B) ∧ (replace h x y).2 = some x ∧
      forward (replace h x y).1 rt = some (A ++ y :: B) := by
  obtain ⟨ts, R⟩ := hr.rep
  rcases R.replace x y with ⟨rt', h'', t', A, B, e1, e2, e3, e4, e5, R'⟩ | ⟨e1, e2⟩
  · rw [hx] at e1
    obtain rfl := Option.some.inj e1
    refine ⟨A, B, by rw [forward_spec (R.tr rt).holds, e4], by rw [e3], ?_⟩
    rw [e3, forward_spec (R'.tr rt).holds]
    simp [e5]
  · rw [hx, hy] at e1
    simp at e1

/-- Inserting on the left of a node that has no left child puts the new node just before it. -/
theorem tree_insertLeft_order (hr : Reach h) (x p : Fin N) (rt : Fin M) (hx : (h.cell x).root = none)
    (hp : (h.cell p).root = some rt) (hl : (h.cell p).left = none) :
    ∃ h' A B, insertLeft h x p = some (h', some x) ∧ forward h rt = some (A ++ p :: B) ∧
      forward h' rt = some (A ++ x :: p :: B) := by
  obtain ⟨ts, R⟩ := hr.rep
  rcases R.insertLeft x p hp with ⟨_, _, h', t', A, B, e1, e2, e3, R'⟩ | ⟨e1, _⟩
  · refine ⟨h', A, B, e1, by rw [forward_spec (R.tr rt).holds, e2], ?_⟩
    rw [forward_spec (R'.tr rt).holds]
    simp [e3]
  · rw [hx, hl] at e1
    simp at e1

/-- Inserting on the right of a node that has no right child puts the new node just after it. -/
theorem tree_insertRight_order (hr : Reach h) (x p : Fin N) (rt : Fin M) (hx : (h.cell x).root = none)
    (hp : (h.cell p).root = some rt) (hl : (h.cell p).right = none) :
    ∃ h' A B, insertRight h x p = some (h', some x) ∧ forward h rt = some (A ++ p :: B) ∧
      forward h' rt = some (A ++ p :: x :: B) := by
  obtain ⟨ts, R⟩ := hr.rep
  rcases R.insertRight x p hp with ⟨_, _, h', t', A, B, e1, e2, e3, R'⟩ | ⟨e1, _⟩
  · refine ⟨h', A, B, e1, by rw [forward_spec (R.tr rt).holds, e2], ?_⟩
    rw [forward_spec (R'.tr rt).holds]
    simp [e3]
  · rw [hx, hl] at e1
    simp at e1

example : ∃ h : Heap 7 1, ∃ rs, codeRun (fun _ => byNumber) (fresh 7 1) sample = some (h, rs) ∧
    forward h 0 = some [0, 1, 2, 4, 5] ∧ backward h 0 = some [5, 4, 2, 1, 0] := by
  refine ⟨_, _, rfl, ?_⟩
  decide

end Diminuto.Tree
