import Verif.TreeOps3

/-!
# Lemmas about the Tree: searching and iterating
-/

namespace Diminuto.Tree

open Frame T

variable {N M : Nat} {h₀ h : Heap N M} {rt : Fin M} {L : List (Fin N)} {k : List (Frame N)}

theorem searchFrom_spec {q : Fin N → Int} {t : T N} {c : Color} {l r : T N} {x : Fin N} {p : Option (Fin N)}
    {fuel : Nat} (e : t = node c l x r) (hl : Linked h rt p t) (hf : t.inorder.length ≤ fuel)
    (k : List (Frame N)) :
    ∃ (k' : List (Frame N)) (c' : Color) (l' : T N) (n : Fin N) (r' : T N),
      plug k t = plug k' (node c' l' n r') ∧ searchFrom h q fuel x = some (n, q n) ∧
      (q n < 0 → r' = leaf) ∧ (0 < q n → l' = leaf) ∧
      ((plug k t).inorder.Pairwise (fun a b => 0 ≤ q a → 0 < q b) →
        (∀ a ∈ kleft k, q a < 0) → (∀ a ∈ kright k, 0 < q a) →
        (∀ a ∈ kleft k', q a < 0) ∧ (∀ a ∈ kright k', 0 < q a)) := by
  induction t generalizing c l r x p fuel k with
  | leaf => simp at e
  | node c₀ l₀ x₀ r₀ ihl ihr =>
    injection e with e1 e2 e3 e4
    subst e1 e2 e3 e4
    cases fuel with
    | zero => simp [inorder] at hf
    | succ fuel =>
      have hlen : l₀.inorder.length ≤ fuel ∧ r₀.inorder.length ≤ fuel := by
        simp only [inorder, List.length_append, List.length_cons] at hf; omega
      unfold searchFrom
      rw [hl.1]
      simp only []
      by_cases h1 : q x₀ < 0
      · rw [if_pos h1]
        cases r₀ with
        | leaf =>
          exact ⟨k, c₀, l₀, x₀, leaf, rfl, rfl, fun _ => rfl, fun h => by omega, fun _ a b => ⟨a, b⟩⟩
        | node rc rl rx rr =>
          obtain ⟨k', c', l', n, r', f1, f2, f3, f4, f5⟩ := ihr rfl hl.2.2 hlen.2 (inR c₀ l₀ x₀ :: k)
          refine ⟨k', c', l', n, r', f1, f2, f3, f4, fun hs ha hb => f5 hs ?_ hb⟩
          intro a ha'
          rw [inorder_plug] at hs
          simp only [kleft, List.mem_append, List.mem_singleton] at ha'
          rcases ha' with ha' | ha' | rfl
          · exact ha a ha'
          · simp only [inorder, List.pairwise_append, List.pairwise_cons, List.mem_append, List.mem_cons] at hs
            have := hs.1.2.1.2.2 a ha' x₀ (Or.inl rfl)
            omega
          · exact h1
      · rw [if_neg h1]
        by_cases h2 : q x₀ > 0
        · rw [if_pos h2]
          cases l₀ with
          | leaf =>
            exact ⟨k, c₀, leaf, x₀, r₀, rfl, rfl, fun h => by omega, fun _ => rfl, fun _ a b => ⟨a, b⟩⟩
          | node lc ll lx lr =>
            obtain ⟨k', c', l', n, r', f1, f2, f3, f4, f5⟩ := ihl rfl hl.2.1 hlen.1 (inL c₀ x₀ r₀ :: k)
            refine ⟨k', c', l', n, r', f1, f2, f3, f4, fun hs ha hb => f5 hs ha ?_⟩
            intro a ha'
            rw [inorder_plug] at hs
            simp only [kright, List.mem_append, List.mem_cons] at ha'
            rcases ha' with (rfl | ha') | ha'
            · exact h2
            · simp only [inorder, List.pairwise_append, List.pairwise_cons, List.mem_append, List.mem_cons] at hs
              have := hs.1.2.1.2.1.1 a ha'
              omega
            · exact hb a ha'
        · rw [if_neg h2]
          exact ⟨k, c₀, l₀, x₀, r₀, rfl, rfl, fun h => by omega, fun h => by omega, fun _ a b => ⟨a, b⟩⟩

theorem holds_root {t : T N} (hh : Holds h rt t) {x : Fin N} (hx : x ∈ t.inorder) :
    (h.cell x).root = some rt := by
  obtain ⟨k', c', l', r', rfl⟩ := exists_plug hx
  have s' : St h rt (plug k' (node c' l' x r')).inorder h k' (node c' l' x r') :=
    st_plug.mpr (st_of_holds hh)
  rw [s'.cell]

/-- What a search of the whole tree finds. -/
theorem search_spec {q : Fin N → Int} {t : T N} (hh : Holds h rt t) :
    (t = leaf ∧ search h q (h.top rt) = some none) ∨
    ∃ (n : Fin N) (A B : List (Fin N)), search h q (h.top rt) = some (some (n, q n)) ∧
      t.inorder = A ++ n :: B ∧ (q n < 0 → (h.cell n).right = none) ∧ (0 < q n → (h.cell n).left = none) ∧
      (t.inorder.Pairwise (fun a b => 0 ≤ q a → 0 < q b) → (∀ a ∈ A, q a < 0) ∧ (∀ b ∈ B, 0 < q b)) := by
  cases t with
  | leaf => exact Or.inl ⟨rfl, by rw [hh.1]; rfl⟩
  | node c l x r =>
    right
    obtain ⟨k', c', l', n, r', f1, f2, f3, f4, f5⟩ :=
      searchFrom_spec (q := q) rfl hh.2.1 (nodup_length hh.2.2) []
    have hh' := hh
    rw [show node c l x r = plug [] (node c l x r) from rfl, f1] at hh'
    have s' : St h rt (plug k' (node c' l' n r')).inorder h k' (node c' l' n r') :=
      st_plug.mpr (st_of_holds hh')
    have hcell := s'.cell
    have ho : (node c l x r).inorder = (kleft k' ++ l'.inorder) ++ n :: (r'.inorder ++ kright k') := by
      rw [show node c l x r = plug [] (node c l x r) from rfl, f1, inorder_plug]
      simp [inorder]
    refine ⟨n, _, _, ?_, ho, ?_, ?_, ?_⟩
    · rw [hh.1]
      simp only [search, ptr, f2, Option.map_some]
    · intro h1; rw [hcell, f3 h1]; rfl
    · intro h1; rw [hcell, f4 h1]; rfl
    · intro hs
      obtain ⟨g1, g2⟩ := f5 hs (by simp [kleft]) (by simp [kright])
      rw [ho] at hs
      simp only [List.pairwise_append, List.pairwise_cons, List.mem_append, List.mem_cons] at hs
      refine ⟨fun a ha => ?_, fun b hb => ?_⟩
      · rw [List.mem_append] at ha
        rcases ha with ha | ha
        · exact g1 a ha
        · have h3 := hs.2.2 a (Or.inr ha) n (Or.inl rfl)
          by_cases h4 : 0 < q n
          · rw [f4 h4] at ha; simp [inorder] at ha
          · omega
      · rw [List.mem_append] at hb
        rcases hb with hb | hb
        · have h3 := hs.2.1.1 b (Or.inl hb)
          by_cases h4 : q n < 0
          · rw [f3 h4] at hb; simp [inorder] at hb
          · omega
        · exact g2 b hb

theorem climbRight_spec {x : Fin N} {fuel : Nat} (hl : LinkedK h rt k (some x)) (hp : (h.cell x).parent = kptr k)
    (hd : (kleft k ++ [x] ++ kright k).Nodup) (hf : k.length < fuel) :
    climbRight h fuel x = some (kright k).head? := by
  induction k generalizing x fuel with
  | nil =>
    cases fuel with
    | zero => simp at hf
    | succ fuel => simp [climbRight, hp, kptr, kright]
  | cons f k ih =>
    cases fuel with
    | zero => simp at hf
    | succ fuel =>
      unfold climbRight
      rw [hp]
      cases f with
      | inL c n r =>
        simp only [kptr, hl.1]
        have : r.ptr ≠ some x := by
          intro hr
          have := ptr_mem hr
          simp only [kleft, kright, List.nodup_append, List.mem_append, List.mem_cons] at hd
          grind
        rw [if_neg this]
        rfl
      | inR c l n =>
        simp only [kptr, hl.1, if_true]
        refine ih hl.2.2 (by rw [hl.1]) ?_ (by simpa using hf)
        simp only [kleft, kright, List.nodup_append, List.mem_append, List.mem_cons, List.nodup_cons] at hd ⊢
        grind

theorem append_cons_inj {A B A' B' : List (Fin N)} {x : Fin N} (hd : (A ++ x :: B).Nodup)
    (e : A ++ x :: B = A' ++ x :: B') : A = A' ∧ B = B' := by
  have hx : x ∉ A ∧ x ∉ A' := by
    have hd' := hd
    rw [e] at hd'
    simp only [List.nodup_append, List.nodup_cons, List.mem_cons] at hd hd'
    grind
  induction A generalizing A' with
  | nil =>
    cases A' with
    | nil => simpa using e
    | cons a A' =>
      simp only [List.nil_append, List.cons_append, List.cons.injEq] at e
      simp [e.1] at hx
  | cons a A ih =>
    cases A' with
    | nil =>
      simp only [List.nil_append, List.cons_append, List.cons.injEq] at e
      simp [e.1] at hx
    | cons b A' =>
      simp only [List.cons_append, List.cons.injEq] at e hd
      obtain ⟨rfl, e⟩ := e
      obtain ⟨h1, h2⟩ := ih (List.nodup_cons.mp hd).2 e (by simp only [List.mem_cons, not_or] at hx; exact ⟨hx.1.2, hx.2.2⟩)
      exact ⟨by rw [h1], h2⟩

theorem first_spec {t : T N} (hh : Holds h rt t) : first h rt = some t.inorder.head? := by
  unfold first
  rw [hh.1]
  cases t with
  | leaf => rfl
  | node c l x r =>
    obtain ⟨k₂, c₂, y, r₂, e1, e2, e3⟩ := leftmost_spec hh.2.1 (nodup_length hh.2.2)
    simp only [ptr, e3, Option.map_some]
    rw [e1, inorder_plug, e2]
    simp [inorder]

theorem next_spec {t : T N} (hh : Holds h rt t) {x : Fin N} {A B : List (Fin N)}
    (e : t.inorder = A ++ x :: B) : next h x = some B.head? := by
  have hx : x ∈ t.inorder := by rw [e]; simp
  obtain ⟨k, c, l, r, rfl⟩ := exists_plug hx
  have s : St h rt (plug k (node c l x r)).inorder h k (node c l x r) :=
    st_plug.mpr (st_of_holds hh)
  have hd := hh.2.2
  have ho : (plug k (node c l x r)).inorder = (kleft k ++ l.inorder) ++ x :: (r.inorder ++ kright k) := by
    rw [inorder_plug]; simp [inorder]
  have hB : B = r.inorder ++ kright k := (append_cons_inj (e ▸ hd) (e.symm.trans ho)).2
  subst hB
  have hcell := s.cell
  unfold next
  rw [hcell]
  simp only [reduceCtorEq, if_false]
  cases r with
  | leaf =>
    simp only [ptr, inorder, List.nil_append]
    refine climbRight_spec s.around (by rw [hcell]) ?_ ?_
    · rw [ho] at hd
      simp only [inorder, List.nodup_append, List.nodup_cons, List.mem_append, List.mem_cons] at hd ⊢
      grind
    · have h1 := nodup_length hd
      rw [ho] at h1
      have := length_le_nodes k
      simp only [List.length_append, List.length_cons] at h1
      omega
  | node rc rl rx rr =>
    obtain ⟨k₂, c₂, y, r₂, e1, e2, e3⟩ := leftmost_spec (fuel := N) s.below.2.2 (by
      have h1 := nodup_length hd
      rw [ho] at h1
      simp only [List.length_append, List.length_cons] at h1
      omega)
    simp only [ptr, e3, Option.map_some]
    rw [e1, inorder_plug, e2]
    simp [inorder]

theorem holds_mirror {t : T N} (hh : Holds h rt t) : Holds h.mirror rt t.mirror :=
  (st_of_holds hh).mirror.holds

theorem climbLeft_mirror (h : Heap N M) (fuel : Nat) (x : Fin N) :
    climbLeft h fuel x = climbRight h.mirror fuel x := by
  induction fuel generalizing x with
  | zero => rfl
  | succ fuel ih =>
    unfold climbLeft climbRight
    rw [mirror_parent]
    cases (h.cell x).parent with
    | none => rfl
    | some p =>
      simp only [ih]
      rfl

theorem prev_mirror (h : Heap N M) (x : Fin N) : prev h x = next h.mirror x := by
  unfold prev next
  rw [mirror_root, mirror_right]
  split
  · rfl
  · cases (h.cell x).left with
    | none => exact climbLeft_mirror h N x
    | some l => simp only [rightmost_mirror]

theorem last_mirror (h : Heap N M) (r : Fin M) : last h r = first h.mirror r := by
  unfold last first
  rw [mirror_top]
  cases h.top r with
  | none => rfl
  | some n => simp only [rightmost_mirror]

theorem last_spec {t : T N} (hh : Holds h rt t) : last h rt = some t.inorder.reverse.head? := by
  rw [last_mirror, first_spec (holds_mirror hh), inorder_mirror]

theorem prev_spec {t : T N} (hh : Holds h rt t) {x : Fin N} {A B : List (Fin N)}
    (e : t.inorder = A ++ x :: B) : prev h x = some A.reverse.head? := by
  rw [prev_mirror]
  refine next_spec (holds_mirror hh) (A := B.reverse) ?_
  rw [inorder_mirror, e]
  simp

end Diminuto.Tree
