import Verif.TreeMirror

/-!
# Lemmas about the Tree: rebalancing after insertion
-/

namespace Diminuto.Tree

open Frame T

variable {N M : Nat} {h₀ h : Heap N M} {rt : Fin M} {L : List (Fin N)} {k : List (Frame N)}

/-- No red node has a red child, and there are `n` black nodes on every path. -/
def RB : T N → Nat → Prop
  | leaf, n => n = 0
  | node .black l _ r, n => ∃ m, n = m + 1 ∧ RB l m ∧ RB r m
  | node .red l _ r, n => l.color = .black ∧ r.color = .black ∧ RB l n ∧ RB r n

/-- A subtree with `n` black nodes on every path and a root of color `c` may stand here. -/
def KOK : List (Frame N) → Nat → Color → Prop
  | [], _, c => c = .black
  | inL .black _ r :: k, n, _ => RB r n ∧ KOK k (n + 1) .black
  | inL .red _ r :: k, n, c => c = .black ∧ r.color = .black ∧ RB r n ∧ KOK k n .red
  | inR .black l _ :: k, n, _ => RB l n ∧ KOK k (n + 1) .black
  | inR .red l _ :: k, n, c => c = .black ∧ l.color = .black ∧ RB l n ∧ KOK k n .red

theorem KOK.any {n : Nat} {c : Color} (hk : KOK k n c) : KOK k n .black := by
  cases k with
  | nil => rfl
  | cons f k =>
    cases f with
    | inL d m r =>
      cases d with
      | black => exact hk
      | red => exact ⟨rfl, hk.2⟩
    | inR d l m =>
      cases d with
      | black => exact hk
      | red => exact ⟨rfl, hk.2⟩

theorem rb_plug {t : T N} {n : Nat} (hk : KOK k n t.color) (hr : RB t n) :
    ∃ m, RB (plug k t) m ∧ (plug k t).color = .black := by
  induction k generalizing t n with
  | nil => exact ⟨n, hr, hk⟩
  | cons f k ih =>
    cases f with
    | inL d m r =>
      cases d with
      | black => exact ih (n := n + 1) hk.2 ⟨n, rfl, hr, hk.1⟩
      | red => exact ih (n := n) hk.2.2.2 ⟨hk.1, hk.2.1, hr, hk.2.2.1⟩
    | inR d l m =>
      cases d with
      | black => exact ih (n := n + 1) hk.2 ⟨n, rfl, hk.1, hr⟩
      | red => exact ih (n := n) hk.2.2.2 ⟨hk.2.1, hk.1, hk.2.2.1, hr⟩

theorem rb_unplug {t : T N} {m : Nat} (hr : RB (plug k t) m) (hc : (plug k t).color = .black) :
    ∃ n, RB t n ∧ KOK k n t.color := by
  induction k generalizing t with
  | nil => exact ⟨m, hr, hc⟩
  | cons f k ih =>
    cases f with
    | inL d x r =>
      obtain ⟨n, h1, h2⟩ := ih (t := node d t x r) hr hc
      cases d with
      | black => obtain ⟨n, rfl, h3, h4⟩ := h1; exact ⟨n, h3, h4, h2⟩
      | red => exact ⟨n, h1.2.2.1, h1.1, h1.2.1, h1.2.2.2, h2⟩
    | inR d l x =>
      obtain ⟨n, h1, h2⟩ := ih (t := node d l x t) hr hc
      cases d with
      | black => obtain ⟨n, rfl, h3, h4⟩ := h1; exact ⟨n, h4, h3, h2⟩
      | red => exact ⟨n, h1.2.2.2, h1.2.1, h1.1, h1.2.2.1, h2⟩

theorem plug_ne_leaf {t : T N} (ht : t ≠ leaf) : plug k t ≠ leaf := by
  induction k generalizing t with
  | nil => exact ht
  | cons f k ih => cases f <;> exact ih (by simp)

theorem linked_isRed {t : T N} {p : Option (Fin N)} (hl : Linked h rt p t) :
    h.isRed t.ptr = (t.color == .red) := by
  cases t with
  | leaf => rfl
  | node c l n r => simp [Heap.isRed, ptr, hl.1, T.color]

theorem linked_isBlack {t : T N} {p : Option (Fin N)} (hl : Linked h rt p t) :
    h.isBlack t.ptr = (t.color == .black) := by
  cases t with
  | leaf => rfl
  | node c l n r => simp [Heap.isBlack, ptr, hl.1, T.color]

/-- Colouring the root black changes nothing if it is black. -/
theorem St.blacken {t : T N} {n : Nat} (s : St h₀ rt L h k t) (ht : t ≠ leaf)
    (hk : KOK k n t.color) (hr : RB t n) :
    ∃ h' t', ((h.top rt).map fun r => h.setColor r .black) = some h' ∧ St h₀ rt L h' [] t' ∧
      (∃ m, RB t' m) ∧ t'.color = .black := by
  obtain ⟨m, h1, h2⟩ := rb_plug hk hr
  have h3 := plug_ne_leaf (k := k) ht
  have s' := st_plug.mp s
  cases hp : plug k t with
  | leaf => exact absurd hp h3
  | node c l x r =>
    rw [hp] at h1 h2 s'
    have hc : c = .black := h2
    subst hc
    refine ⟨h.setColor x .black, node .black l x r, ?_, s'.setColor, ⟨m, h1⟩, rfl⟩
    rw [show h.top rt = some x from s'.around]; rfl

theorem insertFixup_done {t : T N} {x p : Fin N} {n fuel : Nat} (s : St h₀ rt L h k t) (ht : t ≠ leaf)
    (hk : KOK k n t.color) (hr : RB t n) (hx : (h.cell x).parent = some p)
    (hp : (h.cell p).color = .black) :
    ∃ h' t', insertFixup (fuel + 1) h x rt = some h' ∧ St h₀ rt L h' [] t' ∧
      (∃ m, RB t' m) ∧ t'.color = .black := by
  obtain ⟨h', t', a, b⟩ := s.blacken ht hk hr
  refine ⟨h', t', ?_, b⟩
  unfold insertFixup
  rw [hx]
  simp only [hp]
  exact a

theorem linked_setColorOf_red {h : Heap N M} {t : T N} {c : Color} {l r : T N} {x : Fin N}
    (e : t = node c l x r) (d : Color) : h.setColorOf t.ptr d = h.setColor x d := by
  subst e; rfl

/-- The recolouring for a parent on the left and a red uncle. -/
theorem St.insertRecolorL {t v : T N} {p g : Fin N} {a b : T N} {u : Fin N}
    (s : St h₀ rt L h k (node .black (node .red t p v) g (node .red a u b))) :
    St h₀ rt L (insertRecolor h (some u) p g) k (node .red (node .black t p v) g (node .black a u b)) := by
  have s1 := (st_inR.mpr s).setColor (c' := .black)
  have s2 := (st_inL.mpr (st_inR.mp s1)).setColor (c' := .black)
  exact (st_inL.mp s2).setColor

theorem St.insertRecolorR {t v : T N} {p g : Fin N} {a b : T N} {u : Fin N}
    (s : St h₀ rt L h k (node .black (node .red a u b) g (node .red t p v))) :
    St h₀ rt L (insertRecolor h (some u) p g) k (node .red (node .black a u b) g (node .black t p v)) := by
  have s1 := (st_inL.mpr s).setColor (c' := .black)
  have s2 := (st_inR.mpr (st_inL.mp s1)).setColor (c' := .black)
  exact (st_inR.mp s2).setColor

/-- The rotations for a parent on the left, the node being its left child. -/
theorem St.insertRotateLL {t v w : T N} {p g x : Fin N} (hx : t.ptr = some x)
    (s : St h₀ rt L h k (node .black (node .red t p v) g w)) :
    ∃ h', insertRotateLeft h x p g rt = some (h', x) ∧
      St h₀ rt L h' k (node .black t p (node .red v g w)) := by
  have s1 := (st_inL.mpr s).setColor (c' := .black)
  have s2 := (st_inL.mp s1).setColor (c' := .red)
  obtain ⟨h', a, b⟩ := s2.rotateRight
  refine ⟨h', ?_, b⟩
  have hp := (st_inL.mpr s).cell
  have hv : v.ptr ≠ some x := by
    intro hv
    have h1 := ptr_mem hx
    have h2 := ptr_mem hv
    have := s.nodup
    rw [← s.order] at this
    simp only [inorder, List.nodup_append, List.nodup_cons, List.mem_append, List.mem_cons] at this
    grind
  unfold insertRotateLeft
  rw [if_neg (by rw [hp]; exact hv), a]
  rfl

/-- The same, the node being its right child. -/
theorem St.insertRotateLR {l r v w : T N} {p g x : Fin N}
    (s : St h₀ rt L h k (node .black (node .red v p (node .red l x r)) g w)) :
    ∃ h', insertRotateLeft h x p g rt = some (h', p) ∧
      St h₀ rt L h' k (node .black (node .red v p l) x (node .red r g w)) := by
  have s0 := st_inL.mpr s
  obtain ⟨j, a, b⟩ := s0.rotateLeft
  have s1 := b.setColor (c' := .black)
  have s2 := (st_inL.mp s1).setColor (c' := .red)
  obtain ⟨h', a', b'⟩ := s2.rotateRight
  refine ⟨h', ?_, b'⟩
  have hp := s0.cell
  unfold insertRotateLeft
  rw [if_pos (by rw [hp]; rfl), a]
  simp only [Option.bind_some]
  rw [a']
  rfl

theorem St.insertRotateRR {t v w : T N} {p g x : Fin N} (hx : t.ptr = some x)
    (s : St h₀ rt L h k (node .black w g (node .red v p t))) :
    ∃ h', insertRotateRight h x p g rt = some (h', x) ∧
      St h₀ rt L h' k (node .black (node .red w g v) p t) := by
  obtain ⟨h', a, b⟩ := St.insertRotateLL (x := x) (by rw [ptr_mirror]; exact hx) s.mirror
  refine ⟨h'.mirror, by rw [insertRotateRight_mirror, a]; rfl, St.unmirror ?_⟩
  simpa [T.mirror] using b

theorem St.insertRotateRL {l r v w : T N} {p g x : Fin N}
    (s : St h₀ rt L h k (node .black w g (node .red (node .red l x r) p v))) :
    ∃ h', insertRotateRight h x p g rt = some (h', p) ∧
      St h₀ rt L h' k (node .black (node .red w g l) x (node .red r p v)) := by
  obtain ⟨h', a, b⟩ := St.insertRotateLR s.mirror
  refine ⟨h'.mirror, by rw [insertRotateRight_mirror, a]; rfl, St.unmirror ?_⟩
  simpa [T.mirror] using b

theorem color_cases (c : Color) : c = .red ∨ c = .black := by cases c <;> simp

theorem ptr_ne_of_nodup {t : T N} {p : Fin N} {A : List (Fin N)} (hd : (A ++ t.inorder).Nodup)
    (hp : p ∈ A) : t.ptr ≠ some p := by
  intro h
  have := ptr_mem h
  simp only [List.nodup_append] at hd
  exact hd.2.2 p hp p this rfl

theorem St.insertFixup (fuel : Nat) {l r : T N} {x : Fin N} {n : Nat}
    (s : St h₀ rt L h k (node .red l x r)) (hl : RB l n) (hr : RB r n) (cl : l.color = .black)
    (cr : r.color = .black) (hk : KOK k n .black) (hf : k.length + 2 ≤ fuel) :
    ∃ h' t', Tree.insertFixup fuel h x rt = some h' ∧ St h₀ rt L h' [] t' ∧
      (∃ m, RB t' m) ∧ t'.color = .black := by
  induction fuel generalizing h k l r x n with
  | zero => omega
  | succ fuel ih =>
    have hx := s.cell
    have rbx : RB (node .red l x r) n := ⟨cl, cr, hl, hr⟩
    match k, s, hk, hf, hx with
    | [], s, hk, hf, hx =>
      have s' := s.setColor (c' := .black)
      refine ⟨h.setColor x .black, _, ?_, s', ⟨n + 1, n, rfl, hl, hr⟩, rfl⟩
      unfold Tree.insertFixup
      rw [hx]
      simp only [kptr]
      rw [show h.top rt = some x from s.around]; rfl
    | inL .black p u :: k, s, hk, hf, hx =>
      exact insertFixup_done s (by simp) hk rbx (by rw [hx]; rfl) (by rw [(st_inL.mp s).cell])
    | inR .black u p :: k, s, hk, hf, hx =>
      exact insertFixup_done s (by simp) hk rbx (by rw [hx]; rfl) (by rw [(st_inR.mp s).cell])
    | [inL .red p u], s, hk, hf, hx => exact absurd hk.2.2.2 (by simp [KOK])
    | [inR .red u p], s, hk, hf, hx => exact absurd hk.2.2.2 (by simp [KOK])
    | inL .red p u :: inL .red g v :: k, s, hk, hf, hx => exact absurd hk.2.2.2.1 (by simp)
    | inL .red p u :: inR .red v g :: k, s, hk, hf, hx => exact absurd hk.2.2.2.1 (by simp)
    | inR .red u p :: inL .red g v :: k, s, hk, hf, hx => exact absurd hk.2.2.2.1 (by simp)
    | inR .red u p :: inR .red v g :: k, s, hk, hf, hx => exact absurd hk.2.2.2.1 (by simp)
    | inL .red p u :: inL .black g v :: k, s, hk, hf, hx =>
      obtain ⟨_, cu, ru, rv, hk'⟩ := hk
      have s1 := st_inL.mp s
      have s2 := st_inL.mp s1
      have hp := s1.cell
      have hg := s2.cell
      have hv := linked_isRed s2.below.2.2
      unfold Tree.insertFixup
      simp only [hx, hp, hg, kptr, Option.bind_some, ptr, if_true]
      change ∃ h' t', (if h.isRed v.ptr = true then _ else _) = _ ∧ _
      rw [hv]
      rcases color_cases v.color with cv | cv
      · cases v with
        | leaf => simp [T.color] at cv
        | node c a w b =>
          simp only [T.color] at cv
          subst cv
          simp only [T.color, beq_self_eq_true, if_true]
          exact ih s2.insertRecolorL (n := n + 1) ⟨n, rfl, rbx, ru⟩ ⟨n, rfl, rv.2.2.1, rv.2.2.2⟩ rfl rfl
            hk' (by simp only [List.length_cons] at hf; omega)
      · rw [cv]
        simp only [show (Color.black == Color.red) = false from rfl, Bool.false_eq_true, if_false]
        obtain ⟨h', a, b⟩ := s2.insertRotateLL (x := x) rfl
        rw [a]
        simp only [Option.bind_some]
        obtain ⟨f, rfl⟩ : ∃ f, fuel = f + 1 :=
          ⟨fuel - 1, by simp only [List.length_cons] at hf; omega⟩
        exact insertFixup_done (n := n + 1) b (by simp) hk' ⟨n, rfl, rbx, cu, cv, ru, rv⟩
          (p := p) (by rw [(st_inL.mpr b).cell]; rfl) (by rw [b.cell])
    | inR .red u p :: inL .black g v :: k, s, hk, hf, hx =>
      obtain ⟨_, cu, ru, rv, hk'⟩ := hk
      have s1 := st_inR.mp s
      have s2 := st_inL.mp s1
      have hp := s1.cell
      have hg := s2.cell
      have hv := linked_isRed s2.below.2.2
      unfold Tree.insertFixup
      simp only [hx, hp, hg, kptr, Option.bind_some, ptr, if_true]
      change ∃ h' t', (if h.isRed v.ptr = true then _ else _) = _ ∧ _
      rw [hv]
      rcases color_cases v.color with cv | cv
      · cases v with
        | leaf => simp [T.color] at cv
        | node c a w b =>
          simp only [T.color] at cv
          subst cv
          simp only [T.color, beq_self_eq_true, if_true]
          exact ih s2.insertRecolorL (n := n + 1) ⟨n, rfl, ru, rbx⟩ ⟨n, rfl, rv.2.2.1, rv.2.2.2⟩ rfl rfl
            hk' (by simp only [List.length_cons] at hf; omega)
      · rw [cv]
        simp only [show (Color.black == Color.red) = false from rfl, Bool.false_eq_true, if_false]
        obtain ⟨h', a, b⟩ := s2.insertRotateLR
        rw [a]
        simp only [Option.bind_some]
        obtain ⟨f, rfl⟩ : ∃ f, fuel = f + 1 :=
          ⟨fuel - 1, by simp only [List.length_cons] at hf; omega⟩
        exact insertFixup_done (n := n + 1) b (by simp) hk' ⟨n, rfl, ⟨cu, cl, ru, hl⟩, cr, cv, hr, rv⟩
          (p := x) (by rw [(st_inL.mpr b).cell]; rfl) (by rw [b.cell])
    | inR .red u p :: inR .black v g :: k, s, hk, hf, hx =>
      obtain ⟨_, cu, ru, rv, hk'⟩ := hk
      have s1 := st_inR.mp s
      have s2 := st_inR.mp s1
      have hp := s1.cell
      have hg := s2.cell
      have hv := linked_isRed s2.below.2.1
      have hne : v.ptr ≠ some p := by
        refine ptr_ne_of_nodup (A := [p]) ?_ (by simp)
        have := s2.nodup
        rw [← s2.order] at this
        simp only [inorder, List.nodup_append, List.nodup_cons, List.mem_append, List.mem_cons] at this
        grind
      unfold Tree.insertFixup
      simp only [hx, hp, hg, kptr, Option.bind_some, ptr, if_true]
      change ∃ h' t', (if v.ptr = some p then _ else if h.isRed v.ptr = true then _ else _) = _ ∧ _
      rw [if_neg hne, hv]
      rcases color_cases v.color with cv | cv
      · cases v with
        | leaf => simp [T.color] at cv
        | node c a w b =>
          simp only [T.color] at cv
          subst cv
          simp only [T.color, beq_self_eq_true, if_true]
          exact ih s2.insertRecolorR (n := n + 1) ⟨n, rfl, rv.2.2.1, rv.2.2.2⟩ ⟨n, rfl, ru, rbx⟩ rfl rfl
            hk' (by simp only [List.length_cons] at hf; omega)
      · rw [cv]
        simp only [show (Color.black == Color.red) = false from rfl, Bool.false_eq_true, if_false]
        obtain ⟨h', a, b⟩ := s2.insertRotateRR (x := x) rfl
        rw [a]
        simp only [Option.bind_some]
        obtain ⟨f, rfl⟩ : ∃ f, fuel = f + 1 :=
          ⟨fuel - 1, by simp only [List.length_cons] at hf; omega⟩
        exact insertFixup_done (n := n + 1) b (by simp) hk' ⟨n, rfl, ⟨cv, cu, rv, ru⟩, rbx⟩
          (p := p) (by rw [(st_inR.mpr b).cell]; rfl) (by rw [b.cell])
    | inL .red p u :: inR .black v g :: k, s, hk, hf, hx =>
      obtain ⟨_, cu, ru, rv, hk'⟩ := hk
      have s1 := st_inL.mp s
      have s2 := st_inR.mp s1
      have hp := s1.cell
      have hg := s2.cell
      have hv := linked_isRed s2.below.2.1
      have hne : v.ptr ≠ some p := by
        refine ptr_ne_of_nodup (A := [p]) ?_ (by simp)
        have := s2.nodup
        rw [← s2.order] at this
        simp only [inorder, List.nodup_append, List.nodup_cons, List.mem_append, List.mem_cons] at this
        grind
      unfold Tree.insertFixup
      simp only [hx, hp, hg, kptr, Option.bind_some, ptr, if_true]
      change ∃ h' t', (if v.ptr = some p then _ else if h.isRed v.ptr = true then _ else _) = _ ∧ _
      rw [if_neg hne, hv]
      rcases color_cases v.color with cv | cv
      · cases v with
        | leaf => simp [T.color] at cv
        | node c a w b =>
          simp only [T.color] at cv
          subst cv
          simp only [T.color, beq_self_eq_true, if_true]
          exact ih s2.insertRecolorR (n := n + 1) ⟨n, rfl, rv.2.2.1, rv.2.2.2⟩ ⟨n, rfl, rbx, ru⟩ rfl rfl
            hk' (by simp only [List.length_cons] at hf; omega)
      · rw [cv]
        simp only [show (Color.black == Color.red) = false from rfl, Bool.false_eq_true, if_false]
        obtain ⟨h', a, b⟩ := s2.insertRotateRL
        rw [a]
        simp only [Option.bind_some]
        obtain ⟨f, rfl⟩ : ∃ f, fuel = f + 1 :=
          ⟨fuel - 1, by simp only [List.length_cons] at hf; omega⟩
        exact insertFixup_done (n := n + 1) b (by simp) hk' ⟨n, rfl, ⟨cv, cl, rv, hl⟩, cr, cu, hr, ru⟩
          (p := x) (by rw [(st_inR.mpr b).cell]; rfl) (by rw [b.cell])

end Diminuto.Tree
