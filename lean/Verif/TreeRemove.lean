import Verif.TreeInsert

/-!
# Lemmas about the Tree: rebalancing after removal
-/

namespace Diminuto.Tree

open Frame T

variable {N M : Nat} {h₀ h : Heap N M} {rt : Fin M} {L : List (Fin N)} {k : List (Frame N)}

theorem rb_mirror {t : T N} {n : Nat} (hr : RB t n) : RB t.mirror n := by
  induction t generalizing n with
  | leaf => exact hr
  | node c l x r ihl ihr =>
    cases c with
    | black => obtain ⟨m, rfl, h1, h2⟩ := hr; exact ⟨m, rfl, ihr h2, ihl h1⟩
    | red =>
      obtain ⟨h1, h2, h3, h4⟩ := hr
      exact ⟨by rw [color_mirror]; exact h2, by rw [color_mirror]; exact h1, ihr h4, ihl h3⟩

theorem rb_mirror_iff {t : T N} {n : Nat} : RB t.mirror n ↔ RB t n :=
  ⟨fun h => by simpa using rb_mirror h, rb_mirror⟩

theorem kok_mirror {n : Nat} {c : Color} (hk : KOK k n c) : KOK (k.map Frame.mirror) n c := by
  induction k generalizing n c with
  | nil => exact hk
  | cons f k ih =>
    cases f with
    | inL d x r =>
      cases d with
      | black => exact ⟨rb_mirror hk.1, ih hk.2⟩
      | red => exact ⟨hk.1, by rw [color_mirror]; exact hk.2.1, rb_mirror hk.2.2.1, ih hk.2.2.2⟩
    | inR d l x =>
      cases d with
      | black => exact ⟨rb_mirror hk.1, ih hk.2⟩
      | red => exact ⟨hk.1, by rw [color_mirror]; exact hk.2.1, rb_mirror hk.2.2.1, ih hk.2.2.2⟩

theorem map_mirror_mirror (k : List (Frame N)) : (k.map Frame.mirror).map Frame.mirror = k := by
  simp [Function.comp_def]

theorem kok_mirror_iff {n : Nat} {c : Color} : KOK (k.map Frame.mirror) n c ↔ KOK k n c :=
  ⟨fun h => by simpa [Function.comp_def] using kok_mirror h, kok_mirror⟩

/-- The treatment of a red sibling leaves a black one. -/
theorem St.removeSiblingRight {c : Color} {p : Fin N} {sib t : T N} {n : Nat}
    (s : St h₀ rt L h (inL c p sib :: k) t) (hk : KOK (inL c p sib :: k) (n + 1) .black) :
    ∃ h' k' c' a w b, Tree.removeSiblingRight h p rt = some (h', w) ∧
      St h₀ rt L h' (inL c' p (node .black a w b) :: k') t ∧
      KOK (inL c' p (node .black a w b) :: k') (n + 1) .black ∧ (c' = .red ∨ k' = k) := by
  have s1 := st_inL.mp s
  have hp := s1.cell
  have rs : RB sib (n + 1) := by cases c <;> [exact hk.2.2.1; exact hk.1]
  cases sib with
  | leaf => exact absurd rs (by simp [RB])
  | node d a w b =>
    have hw := s1.below.2.2.1
    unfold Tree.removeSiblingRight
    simp only [hp, ptr, Option.bind_some, hw]
    cases d with
    | black =>
      refine ⟨h, k, c, a, w, b, ?_, s, hk, Or.inr rfl⟩
      rfl
    | red =>
      have hc : c = .black := by
        cases c with
        | black => rfl
        | red => exact absurd hk.2.1 (by simp [T.color])
      subst hc
      have s2 := st_inR.mp ((st_inR.mpr s1).setColor (c' := .black))
      have s3 := s2.setColor (c' := .red)
      obtain ⟨j, e1, e2⟩ := s3.rotateLeft
      have e3 := st_inL.mpr (st_inL.mpr e2)
      obtain ⟨ca, cb, ra, rb⟩ := rs
      cases a with
      | leaf => exact absurd ra (by simp [RB])
      | node ac a1 aw a2 =>
        have : ac = .black := ca
        subst this
        refine ⟨j, inL .black w b :: k, .red, a1, aw, a2, ?_, e3, ⟨rfl, rfl, ra, rb, hk.2⟩, Or.inl rfl⟩
        simp only [if_true]
        rw [e1]
        simp only [Option.bind_some]
        rw [(st_inL.mpr e2).cell]
        rfl

/-- The last iteration makes up for the missing black node. -/
theorem St.removeRotateLeft {c : Color} {p w : Fin N} {a b t : T N} {n : Nat}
    (s : St h₀ rt L h (inL c p (node .black a w b) :: k) t)
    (hk : KOK (inL c p (node .black a w b) :: k) (n + 1) .black) (ht : RB t n)
    (hab : ¬ (a.color = .black ∧ b.color = .black)) :
    ∃ h' t' m, Tree.removeRotateLeft h p w rt = some h' ∧ St h₀ rt L h' k t' ∧ RB t' m ∧
      KOK k m t'.color ∧ t' ≠ leaf := by
  have rs : RB a n ∧ RB b n := by
    cases c
    · obtain ⟨m, e, h1, h2⟩ := hk.2.2.1; cases e; exact ⟨h1, h2⟩
    · obtain ⟨m, e, h1, h2⟩ := hk.1; cases e; exact ⟨h1, h2⟩
  obtain ⟨ra, rb⟩ := rs
  -- the end, with a red node on the right of the sibling
  have fin : ∀ (h : Heap N M) (w z : Fin N) (a b1 b2 : T N),
      St h₀ rt L h (inL c p (node .black a w (node .red b1 z b2)) :: k) t → RB a n → RB b1 n → RB b2 n →
      ∃ h' t' m, Tree.rotateLeft
        (((h.setColor w (h.cell p).color).setColor p .black).setColorOf
          (((h.setColor w (h.cell p).color).setColor p .black).cell w).right .black) p rt = some h' ∧
        St h₀ rt L h' k t' ∧ RB t' m ∧ KOK k m t'.color ∧ t' ≠ leaf := by
    intro h w z a b1 b2 s ra r1 r2
    have hp := (st_inL.mp s).cell
    have s1 := (st_inR.mpr (st_inL.mp s)).setColor (c' := c)
    have s2 := (st_inR.mp s1).setColor (c' := .black)
    have hw := s2.below.2.2.1
    have s3 := (st_inR.mpr (st_inR.mpr s2)).setColor (c' := .black)
    obtain ⟨h', e1, e2⟩ := (st_inR.mp (st_inR.mp s3)).rotateLeft
    rw [hp]
    simp only []
    rw [hw]
    cases c with
    | black =>
      exact ⟨h', _, n + 2, e1, e2, ⟨n + 1, rfl, ⟨n, rfl, ht, ra⟩, ⟨n, rfl, r1, r2⟩⟩, hk.2, by simp⟩
    | red =>
      exact ⟨h', _, n + 1, e1, e2, ⟨rfl, rfl, ⟨n, rfl, ht, ra⟩, ⟨n, rfl, r1, r2⟩⟩, hk.2.2.2, by simp⟩
  have s1 := st_inR.mpr (st_inL.mp s)
  have hw := s1.cell
  have hb := linked_isBlack s1.below.2.2
  unfold Tree.removeRotateLeft
  rw [hw]
  simp only []
  change ∃ h' t' m, Option.bind (if h.isBlack b.ptr = true then _ else _) _ = _ ∧ _
  rw [hb]
  rcases color_cases b.color with cb | cb
  · rw [cb]
    simp only [show (Color.red == Color.black) = false from rfl, Bool.false_eq_true, if_false,
      Option.bind_some]
    cases b with
    | leaf => simp [T.color] at cb
    | node bc b1 z b2 =>
      have : bc = .red := cb
      subst this
      exact fin h w z a b1 b2 s ra rb.2.2.1 rb.2.2.2
  · rw [cb]
    simp only [show (Color.black == Color.black) = true from rfl, if_true]
    cases a with
    | leaf => exact absurd ⟨rfl, cb⟩ hab
    | node ac a1 y a2 =>
      have hc : ac = .red := by
        cases ac with
        | red => rfl
        | black => exact absurd ⟨rfl, cb⟩ hab
      subst hc
      have s2 := (st_inL.mpr s1).setColor (c' := .black)
      have s3 := (st_inL.mp s2).setColor (c' := .red)
      obtain ⟨j, e1, e2⟩ := s3.rotateRight
      have e3 := st_inL.mpr (st_inR.mp e2)
      simp only [ptr, Heap.setColorOf]
      rw [e1]
      simp only [Option.bind_some]
      rw [(st_inR.mp e2).cell]
      simp only [ptr, Option.map_some, Option.bind_some]
      exact fin j y w a1 a2 b e3 ra.2.2.1 ra.2.2.2 rb

theorem St.removeSiblingLeft {c : Color} {p : Fin N} {sib t : T N} {n : Nat}
    (s : St h₀ rt L h (inR c sib p :: k) t) (hk : KOK (inR c sib p :: k) (n + 1) .black) :
    ∃ h' k' c' a w b, Tree.removeSiblingLeft h p rt = some (h', w) ∧
      St h₀ rt L h' (inR c' (node .black a w b) p :: k') t ∧
      KOK (inR c' (node .black a w b) p :: k') (n + 1) .black ∧ (c' = .red ∨ k' = k) := by
  obtain ⟨h', k', c', a, w, b, e1, e2, e3, e4⟩ := St.removeSiblingRight s.mirror (kok_mirror hk)
  refine ⟨h'.mirror, k'.map Frame.mirror, c', b.mirror, w, a.mirror, ?_, ?_, ?_, ?_⟩
  · rw [removeSiblingLeft_mirror, e1]; rfl
  · have := e2.mirror
    simpa [T.mirror, Frame.mirror] using this
  · have := kok_mirror e3
    simpa [T.mirror, Frame.mirror] using this
  · rcases e4 with e | e
    · exact Or.inl e
    · exact Or.inr (by rw [e, map_mirror_mirror])

theorem St.removeRotateRight {c : Color} {p w : Fin N} {a b t : T N} {n : Nat}
    (s : St h₀ rt L h (inR c (node .black a w b) p :: k) t)
    (hk : KOK (inR c (node .black a w b) p :: k) (n + 1) .black) (ht : RB t n)
    (hab : ¬ (a.color = .black ∧ b.color = .black)) :
    ∃ h' t' m, Tree.removeRotateRight h p w rt = some h' ∧ St h₀ rt L h' k t' ∧ RB t' m ∧
      KOK k m t'.color ∧ t' ≠ leaf := by
  obtain ⟨h', t', m, e1, e2, e3, e4, e5⟩ := St.removeRotateLeft s.mirror (kok_mirror hk) (rb_mirror ht)
    (by rw [color_mirror, color_mirror]; exact fun h => hab ⟨h.2, h.1⟩)
  refine ⟨h'.mirror, t'.mirror, m, ?_, ?_, rb_mirror e3, ?_, ?_⟩
  · rw [removeRotateRight_mirror, e1]; rfl
  · have := e2.mirror
    simpa [Function.comp_def] using this
  · rw [color_mirror]; exact kok_mirror_iff.mp e4
  · cases t' with
    | leaf => exact absurd rfl e5
    | node c l x r => simp [T.mirror]

theorem plug_ptr_mem (f : Frame N) (k : List (Frame N)) (t : T N) :
    ∃ y, (plug (f :: k) t).ptr = some y ∧ (y ∈ kleft (f :: k) ∨ y ∈ kright (f :: k)) := by
  induction k generalizing f t with
  | nil => cases f <;> simp [plug, ptr, kleft, kright]
  | cons g k ih =>
    cases f with
    | inL c n r =>
      obtain ⟨y, h1, h2⟩ := ih g (node c t n r)
      refine ⟨y, h1, ?_⟩
      rcases h2 with h2 | h2 <;> simp_all [kleft, kright]
    | inR c l n =>
      obtain ⟨y, h1, h2⟩ := ih g (node c l n t)
      refine ⟨y, h1, ?_⟩
      rcases h2 with h2 | h2 <;> simp_all [kleft, kright]

theorem St.not_top {f : Frame N} {t : T N} (s : St h₀ rt L h (f :: k) t) : t.ptr ≠ h.top rt := by
  have ht : h.top rt = (plug (f :: k) t).ptr := (st_plug.mp s).around
  obtain ⟨y, h1, h2⟩ := plug_ptr_mem f k t
  rw [ht, h1]
  intro h3
  have h4 := ptr_mem h3
  have := s.nodup
  rw [← s.order] at this
  simp only [List.nodup_append, List.mem_append] at this
  grind

theorem St.blackenOf {t : T N} {n : Nat} (s : St h₀ rt L h k t) (ht : t ≠ leaf)
    (hk : KOK k n t.color) (hr : RB t n) :
    ∃ t', St h₀ rt L (h.setColorOf (h.top rt) .black) [] t' ∧ (∃ m, RB t' m) ∧ t'.color = .black := by
  obtain ⟨h', t', e1, e2, e3⟩ := s.blacken ht hk hr
  cases hp : h.top rt with
  | none => rw [hp] at e1; simp at e1
  | some x =>
    rw [hp] at e1
    simp only [Option.map_some, Option.some.injEq] at e1
    subst e1
    exact ⟨t', e2, e3⟩

/-- The loop ends at a red node, which it colors black. -/
theorem St.removeFixup_red {l r : T N} {x : Fin N} {q : Option (Fin N)} {n : Nat} (fuel : Nat)
    (s : St h₀ rt L h k (node .red l x r)) (hl : RB l n) (hr : RB r n) (hk : KOK k (n + 1) .black) :
    ∃ h' t', Tree.removeFixup (fuel + 1) h (some x) q rt = some h' ∧ St h₀ rt L h' [] t' ∧
      (∃ m, RB t' m) ∧ t'.color = .black := by
  have s' := s.setColor (c' := .black)
  obtain ⟨m, h1, h2⟩ := rb_plug (t := node .black l x r) (n := n + 1) hk ⟨n, rfl, hl, hr⟩
  refine ⟨_, _, ?_, st_plug.mp s', ⟨m, h1⟩, h2⟩
  unfold Tree.removeFixup
  have : h.isBlack (some x) = false := by simp [Heap.isBlack, s.cell]
  rw [if_neg (by rw [this]; simp)]
  rfl

theorem St.removeFixup (fuel : Nat) {t : T N} {n : Nat} (s : St h₀ rt L h k t) (ht : RB t n)
    (hk : KOK k (n + 1) .black) (hf : k.length + 2 ≤ fuel) :
    ∃ h' t', Tree.removeFixup fuel h t.ptr (kptr k) rt = some h' ∧ St h₀ rt L h' [] t' ∧
      (∃ m, RB t' m) ∧ t'.color = .black := by
  induction fuel generalizing h k t n with
  | zero => omega
  | succ fuel ih =>
    rcases color_cases t.color with ct | ct
    · cases t with
      | leaf => simp [T.color] at ct
      | node c l x r =>
        have : c = .red := ct
        subst this
        exact s.removeFixup_red fuel ht.2.2.1 ht.2.2.2 hk
    have hbt : h.isBlack t.ptr = true := by rw [linked_isBlack s.below, ct]; rfl
    have hfu : ∃ f, fuel = f + 1 := ⟨fuel - 1, by omega⟩
    match k, s, hk, hf with
    | [], s, hk, hf =>
      have : h.top rt = t.ptr := s.around
      unfold Tree.removeFixup
      rw [if_neg (by rw [this]; simp)]
      refine ⟨_, t, rfl, ?_, ⟨n, ht⟩, ct⟩
      cases t with
      | leaf => exact s
      | node c l x r =>
        have : c = .black := ct
        subst this
        exact s.setColor
    | inL c p sib :: k, s, hk, hf =>
      have hp := (st_inL.mp s).cell
      unfold Tree.removeFixup
      rw [if_pos ⟨hbt, s.not_top⟩]
      simp only [kptr, Option.bind_some]
      rw [if_pos (by rw [hp])]
      obtain ⟨j, k', c', a, w, b, e1, e2, e3, e4⟩ := s.removeSiblingRight hk
      rw [e1]
      simp only [Option.bind_some]
      have e5 := (st_inR.mpr (st_inL.mp e2))
      have hw := e5.cell
      have ha := linked_isBlack e5.below.2.1
      have hb := linked_isBlack e5.below.2.2
      by_cases hab : a.color = .black ∧ b.color = .black
      · rw [if_pos (by rw [hw]; simp only []; rw [ha, hb, hab.1, hab.2]; exact ⟨rfl, rfl⟩)]
        have s1 := st_inR.mp (e5.setColor (c' := .red))
        have hpp : ((j.setColor w .red).cell p).parent = kptr k' := by rw [s1.cell]
        rw [hpp]
        cases c' with
        | red =>
          obtain ⟨f, rfl⟩ := hfu
          obtain ⟨m, he, r1, r2⟩ := e3.2.2.1
          cases he
          exact s1.removeFixup_red (n := n) f ht ⟨hab.1, hab.2, r1, r2⟩ e3.2.2.2.any
        | black =>
          rcases e4 with e4 | e4
          · exact absurd e4 (by simp)
          subst e4
          obtain ⟨m, he, r1, r2⟩ := e3.1
          cases he
          exact ih s1 (n := n + 1) ⟨n, rfl, ht, hab.1, hab.2, r1, r2⟩ e3.2
            (by simp only [List.length_cons] at hf; omega)
      · rw [if_neg (by rw [hw]; simp only []; rw [ha, hb]; simpa using hab)]
        obtain ⟨h', t', m, g1, g2, g3, g4, g5⟩ := e2.removeRotateLeft e3 ht hab
        obtain ⟨t2, g6, g7⟩ := g2.blackenOf g5 g4 g3
        exact ⟨_, t2, by rw [g1]; rfl, g6, g7⟩
    | inR c sib p :: k, s, hk, hf =>
      have hp := (st_inR.mp s).cell
      have rs : RB sib (n + 1) := by cases c <;> [exact hk.2.2.1; exact hk.1]
      have hne : sib.ptr ≠ t.ptr := by
        cases sib with
        | leaf => exact absurd rs (by simp [RB])
        | node d a w b =>
          intro h1
          have h2 := ptr_mem h1.symm
          have := s.nodup
          rw [← s.order] at this
          simp only [kleft, inorder, List.nodup_append, List.mem_append, List.mem_cons] at this
          grind
      unfold Tree.removeFixup
      rw [if_pos ⟨hbt, s.not_top⟩]
      simp only [kptr, Option.bind_some]
      rw [if_neg (by rw [hp]; exact hne), if_pos (by rw [hp])]
      obtain ⟨j, k', c', a, w, b, e1, e2, e3, e4⟩ := s.removeSiblingLeft hk
      rw [e1]
      simp only [Option.bind_some]
      have e5 := (st_inL.mpr (st_inR.mp e2))
      have hw := e5.cell
      have ha := linked_isBlack e5.below.2.1
      have hb := linked_isBlack e5.below.2.2
      by_cases hab : a.color = .black ∧ b.color = .black
      · rw [if_pos (by rw [hw]; simp only []; rw [ha, hb, hab.1, hab.2]; exact ⟨rfl, rfl⟩)]
        have s1 := st_inL.mp (e5.setColor (c' := .red))
        have hpp : ((j.setColor w .red).cell p).parent = kptr k' := by rw [s1.cell]
        rw [hpp]
        cases c' with
        | red =>
          obtain ⟨f, rfl⟩ := hfu
          obtain ⟨m, he, r1, r2⟩ := e3.2.2.1
          cases he
          exact s1.removeFixup_red (n := n) f ⟨hab.1, hab.2, r1, r2⟩ ht e3.2.2.2.any
        | black =>
          rcases e4 with e4 | e4
          · exact absurd e4 (by simp)
          subst e4
          obtain ⟨m, he, r1, r2⟩ := e3.1
          cases he
          exact ih s1 (n := n + 1) ⟨n, rfl, ⟨hab.1, hab.2, r1, r2⟩, ht⟩ e3.2
            (by simp only [List.length_cons] at hf; omega)
      · rw [if_neg (by rw [hw]; simp only []; rw [ha, hb]; simpa using hab)]
        obtain ⟨h', t', m, g1, g2, g3, g4, g5⟩ := e2.removeRotateRight e3 ht hab
        obtain ⟨t2, g6, g7⟩ := g2.blackenOf g5 g4 g3
        exact ⟨_, t2, by rw [g1]; rfl, g6, g7⟩

end Diminuto.Tree
