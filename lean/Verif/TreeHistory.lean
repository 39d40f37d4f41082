import Verif.TreeRep

/-!
# Lemmas about the Tree: histories
-/

namespace Diminuto.Tree

open Frame T

variable {N M : Nat} {h h' : Heap N M} {rt : Fin M} {ts : Fin M → T N}

theorem rb_spec {t : T N} {m : Nat} (hr : RB t m) :
    t.NoRedRed ∧ (∀ p ∈ t.paths, p.count .black = m) ∧ 2 ^ m ≤ t.inorder.length + 1 ∧
      t.height ≤ 2 * m + (if t.color = .red then 1 else 0) := by
  induction t generalizing m with
  | leaf =>
    have hm : m = 0 := hr
    subst hm
    refine ⟨trivial, fun p hp => ?_, by simp [inorder], by simp [T.height]⟩
    simp only [paths, List.mem_singleton] at hp
    simp [hp]
  | node c l n r ihl ihr =>
    cases c with
    | black =>
      obtain ⟨m, rfl, h1, h2⟩ := hr
      obtain ⟨a1, a2, a3, a4⟩ := ihl h1
      obtain ⟨b1, b2, b3, b4⟩ := ihr h2
      refine ⟨⟨by simp, a1, b1⟩, ?_, ?_, ?_⟩
      · intro p hp
        simp only [paths, List.mem_map, List.mem_append] at hp
        obtain ⟨p', hp' | hp', rfl⟩ := hp
        · simp [a2 p' hp']
        · simp [b2 p' hp']
      · simp only [inorder, List.length_append, List.length_cons, Nat.pow_succ]; omega
      · simp only [T.height, T.color, reduceCtorEq, if_false]
        split at a4 <;> split at b4 <;> omega
    | red =>
      obtain ⟨hl, hr', h1, h2⟩ := hr
      obtain ⟨a1, a2, a3, a4⟩ := ihl h1
      obtain ⟨b1, b2, b3, b4⟩ := ihr h2
      refine ⟨⟨fun _ => ⟨hl, hr'⟩, a1, b1⟩, ?_, ?_, ?_⟩
      · intro p hp
        simp only [paths, List.mem_map, List.mem_append] at hp
        obtain ⟨p', hp' | hp', rfl⟩ := hp
        · simp [a2 p' hp']
        · simp [b2 p' hp']
      · simp only [inorder, List.length_append, List.length_cons]; omega
      · simp only [T.height, T.color, if_true]
        rw [hl] at a4
        rw [hr'] at b4
        simp only [reduceCtorEq, if_false] at a4 b4
        omega

theorem paths_ne (t : T N) : ∃ p, p ∈ t.paths := by
  induction t with
  | leaf => exact ⟨[], by simp [paths]⟩
  | node c l n r ihl _ =>
    obtain ⟨p, hp⟩ := ihl
    exact ⟨c :: p, by simp [paths, hp]⟩

theorem rb_of_spec {t : T N} {m : Nat} (h1 : t.NoRedRed) (h2 : ∀ p ∈ t.paths, p.count .black = m) :
    RB t m := by
  induction t generalizing m with
  | leaf =>
    have := h2 [] (by simp [paths])
    exact this.symm
  | node c l n r ihl ihr =>
    obtain ⟨a, b, d⟩ := h1
    have e : ∀ p, p ∈ l.paths ∨ p ∈ r.paths → (c :: p).count .black = m := by
      intro p hp
      exact h2 _ (by simp only [paths, List.mem_map, List.mem_append]; exact ⟨p, hp, rfl⟩)
    cases c with
    | red =>
      refine ⟨(a rfl).1, (a rfl).2, ihl b fun p hp => ?_, ihr d fun p hp => ?_⟩
      · simpa using e p (Or.inl hp)
      · simpa using e p (Or.inr hp)
    | black =>
      obtain ⟨p, hp⟩ := paths_ne l
      have h3 := e p (Or.inl hp)
      simp only [List.count_cons_self] at h3
      refine ⟨m - 1, by omega, ihl b fun p hp => ?_, ihr d fun p hp => ?_⟩
      · have := e p (Or.inl hp); simp only [List.count_cons_self] at this; omega
      · have := e p (Or.inr hp); simp only [List.count_cons_self] at this; omega

theorem rb_redblack {t : T N} : t.RedBlack ↔ (∃ m, RB t m) ∧ t.color = .black := by
  constructor
  · rintro ⟨h1, h2, h3⟩
    obtain ⟨p, hp⟩ := paths_ne t
    exact ⟨⟨p.count .black, rb_of_spec h2 fun q hq => h3 q hq p hp⟩, h1⟩
  · rintro ⟨⟨m, hm⟩, h1⟩
    obtain ⟨h2, h3, _⟩ := rb_spec hm
    exact ⟨h1, h2, fun p hp q hq => by rw [h3 p hp, h3 q hq]⟩

theorem redblack_height {t : T N} (hr : t.RedBlack) : 2 ^ t.height ≤ (t.inorder.length + 1) ^ 2 := by
  obtain ⟨⟨m, hm⟩, hc⟩ := rb_redblack.mp hr
  obtain ⟨_, _, h3, h4⟩ := rb_spec hm
  rw [hc] at h4
  simp only [reduceCtorEq, if_false, Nat.add_zero] at h4
  calc 2 ^ t.height ≤ 2 ^ (2 * m) := Nat.pow_le_pow_right (by omega) h4
    _ = (2 ^ m) ^ 2 := by rw [Nat.mul_comm, Nat.pow_mul]
    _ ≤ _ := Nat.pow_le_pow_left h3 2

/-- What search-insert-or-replace does, whatever the comparator. -/
theorem Rep.put (R : Rep h ts) (cmp : Fin N → Fin N → Int) (rt : Fin M) (x : Fin N) (rep : Bool) :
    (((h.cell x).root ≠ none ∨ (rep = false ∧ ∃ n ∈ (ts rt).inorder, cmp n x = 0)) ∧
      insertOrReplace h cmp rt x rep = some (h, none)) ∨
    ((h.cell x).root = none ∧ ∃ h' t' A B, insertOrReplace h cmp rt x rep = some (h', some x) ∧
      (ts rt).inorder = A ++ B ∧ t'.inorder = A ++ x :: B ∧ Rep h' (Function.update ts rt t') ∧
      ((ts rt).inorder.Pairwise (fun a b => 0 ≤ cmp a x → 0 < cmp b x) →
        (∀ a ∈ A, cmp a x < 0) ∧ (∀ b ∈ B, 0 < cmp b x))) ∨
    (rep = true ∧ (h.cell x).root = none ∧ ∃ h' t' n A B,
      insertOrReplace h cmp rt x rep = some (h', some n) ∧ cmp n x = 0 ∧
      (ts rt).inorder = A ++ n :: B ∧ t'.inorder = A ++ x :: B ∧ Rep h' (Function.update ts rt t') ∧
      ((ts rt).inorder.Pairwise (fun a b => 0 ≤ cmp a x → 0 < cmp b x) →
        (∀ a ∈ A, cmp a x < 0) ∧ (∀ b ∈ B, 0 < cmp b x))) := by
  unfold insertOrReplace
  rcases search_spec (q := fun n => cmp n x) (R.tr rt).holds with ⟨h1, h2⟩ | ⟨n, A, B, h2, h3, h4, h5, h6⟩
  · rw [h2]
    simp only [Option.bind_some]
    rcases R.insertRoot x rt with ⟨a1, a2, h', t', a3, a4, a5⟩ | ⟨a1, a2⟩
    · right; left
      refine ⟨a1, h', t', [], [], a3, by rw [h1]; rfl, a4, a5, by simp⟩
    · left
      refine ⟨Or.inl ?_, a2⟩
      rcases a1 with a1 | a1
      · exact a1
      · exact absurd h1 a1
  · rw [h2]
    simp only [Option.bind_some]
    have hn : (h.cell n).root = some rt := R.mem_iff.mp (by rw [h3]; simp)
    by_cases c1 : cmp n x < 0
    · rw [if_pos c1]
      rcases R.insertRight x n hn with ⟨a1, a2, h', t', A', B', a3, a4, a5, a6⟩ | ⟨a1, a2⟩
      · right; left
        obtain ⟨rfl, rfl⟩ := append_cons_inj (h3 ▸ (R.tr rt).holds.2.2) (h3.symm.trans a4)
        refine ⟨a1, h', t', A ++ [n], B, a3, by rw [h3]; simp, by rw [a5]; simp, a6, fun hs => ?_⟩
        refine ⟨fun a ha => ?_, (h6 hs).2⟩
        simp only [List.mem_append, List.mem_singleton] at ha
        rcases ha with ha | rfl
        · exact (h6 hs).1 a ha
        · exact c1
      · left
        refine ⟨Or.inl ?_, a2⟩
        rcases a1 with a1 | a1
        · exact a1
        · exact absurd (h4 c1) a1
    · rw [if_neg c1]
      by_cases c2 : cmp n x > 0
      · rw [if_pos c2]
        rcases R.insertLeft x n hn with ⟨a1, a2, h', t', A', B', a3, a4, a5, a6⟩ | ⟨a1, a2⟩
        · right; left
          obtain ⟨rfl, rfl⟩ := append_cons_inj (h3 ▸ (R.tr rt).holds.2.2) (h3.symm.trans a4)
          refine ⟨a1, h', t', A, n :: B, a3, h3, a5, a6, fun hs => ?_⟩
          refine ⟨(h6 hs).1, fun b hb => ?_⟩
          simp only [List.mem_cons] at hb
          rcases hb with rfl | hb
          · exact c2
          · exact (h6 hs).2 b hb
        · left
          refine ⟨Or.inl ?_, a2⟩
          rcases a1 with a1 | a1
          · exact a1
          · exact absurd (h5 c2) a1
      · rw [if_neg c2]
        have c0 : cmp n x = 0 := by omega
        cases rep with
        | false =>
          left
          exact ⟨Or.inr ⟨rfl, n, by rw [h3]; simp, c0⟩, rfl⟩
        | true =>
          rw [if_pos rfl]
          rcases R.replace n x with ⟨rt', h', t', A', B', a1, a2, a3, a4, a5, a6⟩ | ⟨a1, a2⟩
          · right; right
            rw [hn] at a1
            obtain rfl := Option.some.inj a1
            obtain ⟨rfl, rfl⟩ := append_cons_inj (h3 ▸ (R.tr rt).holds.2.2) (h3.symm.trans a4)
            exact ⟨rfl, a2, h', t', n, A, B, by rw [a3], c0, h3, a5, a6, h6⟩
          · left
            refine ⟨Or.inl ?_, by rw [a2]⟩
            rcases a1 with a1 | a1
            · rw [hn] at a1; simp at a1
            · exact a1

theorem find_spec (R : Rep h ts) (q : Fin N → Int) (rt : Fin M)
    (hs : (ts rt).inorder.Pairwise (fun a b => 0 ≤ q a → 0 < q b)) :
    (∃ n ∈ (ts rt).inorder, find h q rt = some (some n) ∧ q n = 0 ∧ ∀ a ∈ (ts rt).inorder, q a = 0 → a = n) ∨
    (find h q rt = some none ∧ ∀ n ∈ (ts rt).inorder, q n ≠ 0) := by
  unfold find
  rcases search_spec (q := q) (R.tr rt).holds with ⟨h1, h2⟩ | ⟨n, A, B, h2, h3, h4, h5, h6⟩
  · right
    rw [h2, h1]
    exact ⟨rfl, by simp [inorder]⟩
  · rw [h2]
    obtain ⟨g1, g2⟩ := h6 hs
    have key : ∀ a ∈ (ts rt).inorder, q a = 0 → a = n := by
      intro a ha h0
      rw [h3, List.mem_append, List.mem_cons] at ha
      rcases ha with ha | ha | ha
      · have := g1 a ha; omega
      · exact ha
      · have := g2 a ha; omega
    by_cases h0 : q n = 0
    · left
      exact ⟨n, by rw [h3]; simp, by simp [h0], h0, key⟩
    · right
      refine ⟨by simp [h0], fun a ha ha0 => ?_⟩
      have := key a ha ha0
      exact h0 (this ▸ ha0)

end Diminuto.Tree
