import Verif.TreeSpec

/-!
# Lemmas about the Tree: a tree with a node singled out

`Frame` and `plug` describe the surroundings of a subtree; `St` says that a heap holds a tree of which a
subtree is singled out.  Colouring and rotating at that place keep `St`.
-/

namespace Diminuto.Tree

variable {N M : Nat}

/-- One step of the way up from a subtree: it is the left, or the right, child of a node. -/
inductive Frame (N : Nat)
  | inL (c : Color) (n : Fin N) (r : T N)
  | inR (c : Color) (l : T N) (n : Fin N)

open Frame T

def plug : List (Frame N) → T N → T N
  | [], t => t
  | inL c n r :: k, t => plug k (node c t n r)
  | inR c l n :: k, t => plug k (node c l n t)

/-- The parent of the subtree. -/
def kptr : List (Frame N) → Option (Fin N)
  | [] => none
  | inL _ n _ :: _ => some n
  | inR _ _ n :: _ => some n

/-- The nodes before, and after, the subtree. -/
def kleft : List (Frame N) → List (Fin N)
  | [] => []
  | inL _ _ _ :: k => kleft k
  | inR _ l n :: k => kleft k ++ (l.inorder ++ [n])

def kright : List (Frame N) → List (Fin N)
  | [] => []
  | inL _ n r :: k => n :: r.inorder ++ kright k
  | inR _ _ _ :: k => kright k

theorem inorder_plug (k : List (Frame N)) (t : T N) :
    (plug k t).inorder = kleft k ++ t.inorder ++ kright k := by
  induction k generalizing t with
  | nil => simp [plug, kleft, kright]
  | cons f k ih =>
    cases f <;> simp [plug, kleft, kright, ih, inorder]

/-- The surroundings `k` are linked, the link down from them being `q`. -/
def LinkedK (h : Heap N M) (rt : Fin M) : List (Frame N) → Option (Fin N) → Prop
  | [], q => h.top rt = q
  | inL c n r :: k, q =>
    h.cell n = ⟨kptr k, q, r.ptr, some rt, c, false⟩ ∧ Linked h rt (some n) r ∧ LinkedK h rt k (some n)
  | inR c l n :: k, q =>
    h.cell n = ⟨kptr k, l.ptr, q, some rt, c, false⟩ ∧ Linked h rt (some n) l ∧ LinkedK h rt k (some n)

theorem linked_congr {h h' : Heap N M} {rt : Fin M} {t : T N} {p : Option (Fin N)}
    (hc : ∀ x ∈ t.inorder, h'.cell x = h.cell x) (hl : Linked h rt p t) : Linked h' rt p t := by
  induction t generalizing p with
  | leaf => trivial
  | node c l n r ihl ihr =>
    obtain ⟨h1, h2, h3⟩ := hl
    refine ⟨?_, ihl (fun x hx => hc x ?_) h2, ihr (fun x hx => hc x ?_) h3⟩
    · rw [hc n (by simp [inorder]), h1]
    · simp [inorder, hx]
    · simp [inorder, hx]

theorem linkedK_congr {h h' : Heap N M} {rt : Fin M} {k : List (Frame N)} {q : Option (Fin N)}
    (hc : ∀ x, x ∈ kleft k ∨ x ∈ kright k → h'.cell x = h.cell x) (ht : h'.top rt = h.top rt)
    (hl : LinkedK h rt k q) : LinkedK h' rt k q := by
  induction k generalizing q with
  | nil => simp only [LinkedK] at *; rw [ht, hl]
  | cons f k ih =>
    cases f with
    | inL c n r =>
      obtain ⟨h1, h2, h3⟩ := hl
      refine ⟨?_, linked_congr (fun x hx => hc x ?_) h2, ih (fun x hx => hc x ?_) h3⟩
      · rw [hc n (by simp [kright]), h1]
      · simp [kright, hx]
      · rcases hx with hx | hx <;> simp [kleft, kright, hx]
    | inR c l n =>
      obtain ⟨h1, h2, h3⟩ := hl
      refine ⟨?_, linked_congr (fun x hx => hc x ?_) h2, ih (fun x hx => hc x ?_) h3⟩
      · rw [hc n (by simp [kleft]), h1]
      · simp [kleft, hx]
      · rcases hx with hx | hx <;> simp [kleft, kright, hx]

/-- The heap `h` holds, from `rt`, the tree in which the subtree `t` has the surroundings
`k`; its nodes in order are `L`; everything else is as in the heap `h₀`. -/
structure St (h₀ : Heap N M) (rt : Fin M) (L : List (Fin N)) (h : Heap N M) (k : List (Frame N))
    (t : T N) : Prop where
  around : LinkedK h rt k t.ptr
  below : Linked h rt (kptr k) t
  order : kleft k ++ t.inorder ++ kright k = L
  nodup : L.Nodup
  cells : ∀ x ∉ L, h.cell x = h₀.cell x
  tops : ∀ r, r ≠ rt → h.top r = h₀.top r

variable {h₀ h : Heap N M} {rt : Fin M} {L : List (Fin N)} {k : List (Frame N)}

theorem St.holds {t : T N} (s : St h₀ rt L h [] t) : Holds h rt t := by
  refine ⟨s.around, s.below, ?_⟩
  have := s.order
  simp only [kleft, kright, List.nil_append, List.append_nil] at this
  rw [this]; exact s.nodup

theorem st_of_holds {t : T N} (hh : Holds h rt t) : St h rt t.inorder h [] t :=
  ⟨hh.1, hh.2.1, by simp [kleft, kright], hh.2.2, fun _ _ => rfl, fun _ _ => rfl⟩

theorem st_inL {c : Color} {n : Fin N} {r t : T N} :
    St h₀ rt L h (inL c n r :: k) t ↔ St h₀ rt L h k (node c t n r) := by
  constructor
  · rintro ⟨⟨a1, a2, a3⟩, b, o, d, e, f⟩
    exact ⟨a3, ⟨a1, b, a2⟩, by simpa [kleft, kright, inorder] using o, d, e, f⟩
  · rintro ⟨a, ⟨b1, b2, b3⟩, o, d, e, f⟩
    exact ⟨⟨b1, b3, a⟩, b2, by simpa [kleft, kright, inorder] using o, d, e, f⟩

theorem st_inR {c : Color} {n : Fin N} {l t : T N} :
    St h₀ rt L h (inR c l n :: k) t ↔ St h₀ rt L h k (node c l n t) := by
  constructor
  · rintro ⟨⟨a1, a2, a3⟩, b, o, d, e, f⟩
    exact ⟨a3, ⟨a1, a2, b⟩, by simpa [kleft, kright, inorder] using o, d, e, f⟩
  · rintro ⟨a, ⟨b1, b2, b3⟩, o, d, e, f⟩
    exact ⟨⟨b1, b2, a⟩, b3, by simpa [kleft, kright, inorder] using o, d, e, f⟩

theorem st_plug {t : T N} : St h₀ rt L h k t ↔ St h₀ rt L h [] (plug k t) := by
  induction k generalizing t with
  | nil => rfl
  | cons f k ih =>
    cases f with
    | inL c n r => rw [st_inL, ih]; rfl
    | inR c l n => rw [st_inR, ih]; rfl

theorem St.cell {c : Color} {n : Fin N} {l r : T N} (s : St h₀ rt L h k (node c l n r)) :
    h.cell n = ⟨kptr k, l.ptr, r.ptr, some rt, c, false⟩ := s.below.1

theorem St.mem {c : Color} {n : Fin N} {l r : T N} (s : St h₀ rt L h k (node c l n r)) : n ∈ L := by
  rw [← s.order]; simp [inorder]

@[simp] theorem setCell_cell (h : Heap N M) (n : Fin N) (c : Cell N M) (x : Fin N) :
    (h.setCell n c).cell x = if x = n then c else h.cell x := rfl
@[simp] theorem setCell_top (h : Heap N M) (n : Fin N) (c : Cell N M) (r : Fin M) :
    (h.setCell n c).top r = h.top r := rfl
@[simp] theorem setTop_cell (h : Heap N M) (r : Fin M) (p : Option (Fin N)) (x : Fin N) :
    (h.setTop r p).cell x = h.cell x := rfl
@[simp] theorem setTop_top (h : Heap N M) (r : Fin M) (p : Option (Fin N)) (x : Fin M) :
    (h.setTop r p).top x = if x = r then p else h.top x := rfl

theorem St.setColor {c c' : Color} {n : Fin N} {l r : T N} (s : St h₀ rt L h k (node c l n r)) :
    St h₀ rt L (h.setColor n c') k (node c' l n r) := by
  have hd : (kleft k ++ (node c l n r).inorder ++ kright k).Nodup := by rw [s.order]; exact s.nodup
  have hc := s.cell
  have hm := s.mem
  obtain ⟨a, ⟨b1, b2, b3⟩, o, d, e, f⟩ := s
  have hn : ∀ x, x ≠ n → (h.setColor n c').cell x = h.cell x := by
    intro x hx; simp [Heap.setColor, hx]
  simp only [inorder, List.nodup_append, List.nodup_cons, List.mem_append, List.mem_cons] at hd
  refine ⟨linkedK_congr (fun x hx => hn x ?_) rfl a, ⟨?_, linked_congr (fun x hx => hn x ?_) b2,
    linked_congr (fun x hx => hn x ?_) b3⟩, o, d, ?_, f⟩
  · rintro rfl
    grind
  · simp [Heap.setColor, hc]
  · rintro rfl; grind
  · rintro rfl; grind
  · intro x hx
    rw [hn x (by rintro rfl; exact hx hm), e x hx]

end Diminuto.Tree
