import Verif.BufferSpec

/-!
# Lemmas: buffer pools
-/

namespace Diminuto.Buffer

/-- A linked list. -/
def Chain (header : Nat → Nat) : Nat → List Nat → Prop
  | p, [] => p = 0
  | p, a :: l => p = a ∧ a ≠ 0 ∧ Chain header (header a) l

theorem upd_same {α : Type} (f : Nat → α) (i : Nat) (x : α) : upd f i x i = x := by simp [upd]

theorem upd_ne {α : Type} (f : Nat → α) {i j : Nat} (x : α) (h : j ≠ i) : upd f i x j = f j := by simp [upd, h]

theorem chain_congr (f g : Nat → Nat) : ∀ (l : List Nat) (p : Nat), (∀ a ∈ l, f a = g a) → Chain f p l → Chain g p l := by
  intro l
  induction l with
  | nil => intro p _ h; exact h
  | cons a l ih =>
    intro p hfg h
    obtain ⟨h1, h2, h3⟩ := h
    refine ⟨h1, h2, ?_⟩
    rw [← hfg a (by simp)]
    exact ih _ (fun b hb => hfg b (by simp [hb])) h3

/-- The header of a buffer that is held. -/
def Encodes (sizes : List Nat) (k h : Nat) : Prop :=
  sizes[h]? = some k ∨ ((∀ x ∈ sizes, x < k) ∧ h = k + 8)

/-- What holds between state and specification. -/
structure Inv (sizes : List Nat) (s : State) (v : View) : Prop where
  chain : ∀ c, c < sizes.length → Chain s.header (s.pool c) (v.stack c)
  beyond : ∀ c, sizes.length ≤ c → v.stack c = []
  nodup : ∀ c, (v.stack c).Nodup
  apart : ∀ c d a, a ∈ v.stack c → a ∈ v.stack d → c = d
  held : ∀ a k, v.cap a = some k →
    a ≠ 0 ∧ s.block a = some (k + 8) ∧ Encodes sizes k (s.header a) ∧ k + 8 < W ∧ ∀ c, a ∉ v.stack c
  pooled : ∀ c a k, a ∈ v.stack c → sizes[c]? = some k → a ≠ 0 ∧ s.block a = some (k + 8)
  rest : ∀ a, v.cap a = none → (∀ c, a ∉ v.stack c) → s.block a = none

theorem inv_start (sizes : List Nat) : Inv sizes start View.start where
  chain _ _ := rfl
  beyond _ _ := rfl
  nodup _ := by simp [View.start]
  apart _ _ _ h := by simp [View.start] at h
  held _ _ h := by simp [View.start] at h
  pooled _ _ _ h := by simp [View.start] at h
  rest _ _ _ := rfl

theorem hashLoop_spec (r : Nat) : ∀ (xs : List Nat) (i : Nat),
    ∃ j, hashLoop r xs i = i + j ∧ j ≤ xs.length ∧ (∀ d x, d < j → xs[d]? = some x → x < r) ∧
      ∀ k, xs[j]? = some k → r ≤ k := by
  intro xs
  induction xs with
  | nil => intro i; exact ⟨0, rfl, by simp, by simp, by simp⟩
  | cons x xs ih =>
    intro i
    unfold hashLoop
    by_cases h : x < r
    · rw [if_pos h]
      obtain ⟨j, h1, h2, h3, h4⟩ := ih (i + 1)
      refine ⟨j + 1, by rw [h1]; omega, by simpa using h2, ?_, by simpa using h4⟩
      intro d y hd hy
      cases d with
      | zero => simp at hy; omega
      | succ d => exact h3 d y (by omega) (by simpa using hy)
    · rw [if_neg h]
      exact ⟨0, rfl, by simp, by simp, by simp; omega⟩

theorem capacity_eq (sizes : List Nat) (size c k : Nat) (hk : sizes[c]? = some k) (hge : size ≤ k)
    (hlt : ∀ d x, d < c → sizes[d]? = some x → x < size) : capacity sizes size = k := by
  unfold capacity
  induction sizes generalizing c with
  | nil => simp at hk
  | cons x xs ih =>
    rw [List.find?_cons]
    cases c with
    | zero =>
      simp only [List.getElem?_cons_zero, Option.some.injEq] at hk
      subst hk
      simp [hge]
    | succ c =>
      have : x < size := hlt 0 x (by omega) (by simp)
      rw [show decide (size ≤ x) = false by simp; omega]
      exact ih c (by simpa using hk) (fun d y hd hy => hlt (d + 1) y (by omega) (by simpa using hy))

theorem capacity_none (sizes : List Nat) (size : Nat) (h : ∀ x ∈ sizes, x < size) : capacity sizes size = size := by
  unfold capacity
  rw [List.find?_eq_none.2 (fun x hx => by have := h x hx; simp; omega)]
  rfl

theorem capacity_ge (sizes : List Nat) (size : Nat) : size ≤ capacity sizes size := by
  unfold capacity
  cases h : sizes.find? (size ≤ ·) with
  | none => simp
  | some k => have := List.find?_some h; simpa using this

/-- The hash of a request: an index and its size, or beyond all sizes. -/
theorem hash_cases (sizes : List Nat) (hV : Valid sizes) (size : Nat) (hb : size + 8 < W ∨ ∃ x ∈ sizes, size ≤ x) :
    (∃ c k, hash sizes size = (c, k + 8) ∧ sizes[c]? = some k ∧ size ≤ k ∧ capacity sizes size = k ∧
        (∀ d x, d < c → sizes[d]? = some x → x < size)) ∨
      (hash sizes size = (sizes.length, size + 8) ∧ (∀ x ∈ sizes, x < size) ∧ capacity sizes size = size) := by
  obtain ⟨j, h1, h2, h3, h4⟩ := hashLoop_spec size sizes 0
  have hc := hV.count
  unfold hash
  rw [h1, Nat.zero_add]
  by_cases hj : j < sizes.length
  · left
    have hk : sizes[j]? = some sizes[j] := List.getElem?_eq_getElem hj
    refine ⟨j, sizes[j], ?_, hk, h4 _ hk, capacity_eq sizes size j _ hk (h4 _ hk) h3, h3⟩
    have := hV.small sizes[j] (List.getElem_mem hj)
    have e : sizes.getD j 0 = sizes[j] := by simp [List.getD, hk]
    simp only [hj, if_true]
    rw [e, Nat.mod_eq_of_lt (by omega), Nat.mod_eq_of_lt (by unfold W; omega)]
  · right
    have hj' : j = sizes.length := by omega
    subst hj'
    have hlt : ∀ x ∈ sizes, x < size := by
      intro x hx
      obtain ⟨d, hd, rfl⟩ := List.mem_iff_getElem.1 hx
      exact h3 d _ hd (List.getElem?_eq_getElem hd)
    refine ⟨?_, hlt, capacity_none sizes size hlt⟩
    have hb' : size + 8 < W := by
      rcases hb with hb | ⟨x, hx, hxs⟩
      · exact hb
      · have := hlt x hx; omega
    have e : (if sizes.length < sizes.length then sizes.getD sizes.length 0 else size) = size := if_neg hj
    simp only [e]
    rw [Nat.mod_eq_of_lt (by omega), Nat.mod_eq_of_lt (by omega)]

/-- Ascending sizes are all different, and as many as there are, the greatest is not less than their number less one. -/
theorem index_unique {sizes : List Nat} (hV : Valid sizes) {c d k : Nat} (hc : sizes[c]? = some k)
    (hd : sizes[d]? = some k) : c = d := by
  obtain ⟨h1, e1⟩ := List.getElem?_eq_some_iff.1 hc
  obtain ⟨h2, e2⟩ := List.getElem?_eq_some_iff.1 hd
  have := List.pairwise_iff_getElem.1 hV.ascending
  rcases Nat.lt_trichotomy c d with h | h | h
  · have := this c d h1 h2 h; omega
  · exact h
  · have := this d c h2 h1 h; omega

theorem ascending_ge {sizes : List Nat} (h : sizes.Pairwise (· < ·)) (k : Nat) (hk : ∀ x ∈ sizes, x < k) :
    sizes.length ≤ k := by
  induction sizes generalizing k with
  | nil => simp
  | cons x xs ih =>
    rw [List.pairwise_cons] at h
    have key : ∀ (ys : List Nat) (b k : Nat), ys.Pairwise (· < ·) → (∀ y ∈ ys, b < y) → (∀ y ∈ ys, y < k) → b < k →
        b + ys.length < k := by
      intro ys
      induction ys with
      | nil => intro b k _ _ _ h; simpa using h
      | cons y ys ih =>
        intro b k hp hb hk _
        rw [List.pairwise_cons] at hp
        have h1 := ih y k hp.2 hp.1 (fun z hz => hk z (by simp [hz])) (hk y (by simp))
        have h2 := hb y (by simp)
        simp
        omega
    have := key xs x k h.2 h.1 (fun y hy => hk y (by simp [hy])) (hk x (by simp))
    simp
    omega

theorem encodes_external {sizes : List Nat} (hV : Valid sizes) {k h : Nat} (he : Encodes sizes k h) :
    (sizes[h]? = some k ∧ isExternal sizes h = false ∧ effective sizes h = k + 8) ∨
      ((∀ x ∈ sizes, x < k) ∧ h = k + 8 ∧ isExternal sizes h = true ∧ effective sizes h = k + 8) := by
  rcases he with he | ⟨h1, h2⟩
  · left
    obtain ⟨hl, e⟩ := List.getElem?_eq_some_iff.1 he
    refine ⟨he, by simp [isExternal]; omega, ?_⟩
    unfold effective
    rw [if_pos hl]
    have : sizes.getD h 0 = k := by simp [List.getD, he]
    have h3 := hV.small k (e ▸ List.getElem_mem hl)
    rw [this, Nat.mod_eq_of_lt (by unfold W; omega)]
  · right
    have := ascending_ge hV.ascending k h1
    refine ⟨h1, h2, by simp [isExternal]; omega, ?_⟩
    unfold effective
    rw [if_neg (by omega), h2]

theorem chain_head {f : Nat → Nat} {p : Nat} {l : List Nat} (h : Chain f p l) : p = 0 ↔ l = [] := by
  cases l with
  | nil => simpa [Chain] using h
  | cons a l => obtain ⟨h1, h2, -⟩ := h; simp; omega

/-- A fresh block added to the held ones. -/
theorem inv_fresh {sizes : List Nat} {s : State} {v : View} (hi : Inv sizes s v) {a k h : Nat} (hu : v.Unused a)
    (he : Encodes sizes k h) (hk : k + 8 < W) (f : Nat → Nat → Byte) :
    Inv sizes { pool := s.pool, block := upd s.block a (some (k + 8)), header := upd s.header a h, content := f }
      { v with cap := upd v.cap a (some k) } where
  chain c hc := chain_congr _ _ _ _ (fun b hb => by
    simp only []
    rw [upd_ne]
    rintro rfl
    exact hu.2.2 c hb) (hi.chain c hc)
  beyond := hi.beyond
  nodup := hi.nodup
  apart := hi.apart
  held b k' hb := by
    simp only [] at hb ⊢
    by_cases hab : b = a
    · subst hab
      rw [upd_same] at hb ⊢
      rw [upd_same]
      obtain rfl := Option.some.inj hb
      exact ⟨hu.1, rfl, he, hk, hu.2.2⟩
    · rw [upd_ne _ _ hab] at hb ⊢
      rw [upd_ne _ _ hab]
      exact hi.held b k' hb
  pooled c b k' hb hc := by
    simp only []
    rw [upd_ne _ _ (by rintro rfl; exact hu.2.2 c hb)]
    exact hi.pooled c b k' hb hc
  rest b hb hs := by
    simp only [] at hb ⊢
    have hab : b ≠ a := by
      rintro rfl
      rw [upd_same] at hb
      simp at hb
    rw [upd_ne _ _ hab] at hb ⊢
    exact hi.rest b hb hs

/-- The first buffer of a stack given out. -/
theorem inv_reuse {sizes : List Nat} {s : State} {v : View} (hi : Inv sizes s v) {a c k : Nat} {l : List Nat}
    (hk : sizes[c]? = some k) (hs : v.stack c = a :: l) (hk8 : k + 8 < W) :
    Inv sizes { s with pool := upd s.pool c (s.header a), header := upd s.header a c }
      { stack := upd v.stack c l, cap := upd v.cap a (some k) } := by
  have hsub : ∀ d b, b ∈ upd v.stack c l d → b ∈ v.stack d := by
    intro d b hb
    by_cases hd : d = c
    · subst hd
      rw [upd_same] at hb
      rw [hs]
      simp [hb]
    · rwa [upd_ne _ _ hd] at hb
  have ha : a ∈ v.stack c := by rw [hs]; simp
  have hna : ∀ d, a ∉ upd v.stack c l d := by
    intro d hd
    have := hi.apart d c a (hsub d a hd) ha
    subst this
    rw [upd_same] at hd
    have := hi.nodup d
    rw [hs] at this
    simp only [List.nodup_cons] at this
    exact this.1 hd
  obtain ⟨p1, p2⟩ := hi.pooled c a k ha hk
  have hclen : c < sizes.length := (List.getElem?_eq_some_iff.1 hk).1
  refine ⟨?_, ?_, ?_, ?_, ?_, ?_, ?_⟩
  · intro d hd
    simp only []
    apply chain_congr s.header
    · intro b hb
      rw [upd_ne]
      rintro rfl
      exact hna d hb
    · by_cases hdc : d = c
      · subst hdc
        rw [upd_same, upd_same]
        have := hi.chain d hd
        rw [hs] at this
        exact this.2.2
      · rw [upd_ne _ _ hdc, upd_ne _ _ hdc]
        exact hi.chain d hd
  · intro d hd
    simp only []
    rw [upd_ne _ _ (by omega)]
    exact hi.beyond d hd
  · intro d
    simp only []
    by_cases hdc : d = c
    · subst hdc
      rw [upd_same]
      have := hi.nodup d
      rw [hs] at this
      simp only [List.nodup_cons] at this
      exact this.2
    · rw [upd_ne _ _ hdc]
      exact hi.nodup d
  · intro d e b h1 h2
    exact hi.apart d e b (hsub d b h1) (hsub e b h2)
  · intro b k' hb
    simp only [] at hb ⊢
    by_cases hba : b = a
    · subst hba
      rw [upd_same] at hb ⊢
      obtain rfl := Option.some.inj hb
      exact ⟨p1, p2, .inl hk, hk8, hna⟩
    · rw [upd_ne _ _ hba] at hb ⊢
      obtain ⟨q1, q2, q3, q4, q5⟩ := hi.held b k' hb
      exact ⟨q1, q2, q3, q4, fun d hd => q5 d (hsub d b hd)⟩
  · intro d b k' hb hd
    exact hi.pooled d b k' (hsub d b hb) hd
  · intro b hb hn
    simp only [] at hb hn
    have hba : b ≠ a := by
      rintro rfl
      rw [upd_same] at hb
      simp at hb
    rw [upd_ne _ _ hba] at hb
    apply hi.rest b hb
    intro d hd
    by_cases hdc : d = c
    · subst hdc
      rw [hs] at hd
      have := hn d
      rw [upd_same] at this
      rcases List.mem_cons.1 hd with h | h
      · exact hba h
      · exact this h
    · have := hn d
      rw [upd_ne _ _ hdc] at this
      exact this hd

/-- A held buffer, or a fresh one, put on a stack. -/
theorem inv_push {sizes : List Nat} {s : State} {v : View} (hi : Inv sizes s v) {a c k : Nat}
    (hk : sizes[c]? = some k) (ha : a ≠ 0) (hn : ∀ d, a ∉ v.stack d) :
    Inv sizes { pool := upd s.pool c a, block := upd s.block a (some (k + 8)), header := upd s.header a (s.pool c),
                content := s.content }
      { stack := upd v.stack c (a :: v.stack c), cap := upd v.cap a none } := by
  have hclen : c < sizes.length := (List.getElem?_eq_some_iff.1 hk).1
  have hmem : ∀ d b, b ∈ upd v.stack c (a :: v.stack c) d ↔ (b = a ∧ d = c) ∨ b ∈ v.stack d := by
    intro d b
    by_cases hd : d = c
    · subst hd
      rw [upd_same]
      simp
    · rw [upd_ne _ _ hd]
      simp [hd]
  refine ⟨?_, ?_, ?_, ?_, ?_, ?_, ?_⟩
  · intro d hd
    simp only []
    have hcg : Chain (upd s.header a (s.pool c)) (s.pool d) (v.stack d) := by
      apply chain_congr s.header _ _ _ _ (hi.chain d hd)
      intro b hb
      rw [upd_ne]
      rintro rfl
      exact hn d hb
    by_cases hdc : d = c
    · subst hdc
      rw [upd_same, upd_same]
      refine ⟨rfl, ha, ?_⟩
      rw [upd_same]
      exact hcg
    · rw [upd_ne _ _ hdc, upd_ne _ _ hdc]
      exact hcg
  · intro d hd
    simp only []
    rw [upd_ne _ _ (by omega)]
    exact hi.beyond d hd
  · intro d
    simp only []
    by_cases hdc : d = c
    · subst hdc
      rw [upd_same, List.nodup_cons]
      exact ⟨hn d, hi.nodup d⟩
    · rw [upd_ne _ _ hdc]
      exact hi.nodup d
  · intro d e b h1 h2
    rcases (hmem d b).1 h1 with ⟨rfl, rfl⟩ | h1
    · rcases (hmem e b).1 h2 with ⟨_, rfl⟩ | h2
      · rfl
      · exact absurd h2 (hn e)
    · rcases (hmem e b).1 h2 with ⟨hb, _⟩ | h2
      · exact absurd (hb ▸ h1) (hn d)
      · exact hi.apart d e b h1 h2
  · intro b k' hb
    simp only [] at hb ⊢
    have hba : b ≠ a := by
      rintro rfl
      rw [upd_same] at hb
      simp at hb
    rw [upd_ne _ _ hba] at hb ⊢
    rw [upd_ne _ _ hba]
    obtain ⟨q1, q2, q3, q4, q5⟩ := hi.held b k' hb
    refine ⟨q1, q2, q3, q4, fun d hd => ?_⟩
    rcases (hmem d b).1 hd with ⟨h, _⟩ | h
    · exact hba h
    · exact q5 d h
  · intro d b k' hb hd
    simp only [] at hb ⊢
    by_cases hba : b = a
    · subst hba
      rcases (hmem d b).1 hb with ⟨_, rfl⟩ | h
      · rw [hk] at hd
        obtain rfl := Option.some.inj hd
        exact ⟨ha, upd_same _ _ _⟩
      · exact absurd h (hn d)
    · rw [upd_ne _ _ hba]
      rcases (hmem d b).1 hb with ⟨h, _⟩ | h
      · exact absurd h hba
      · exact hi.pooled d b k' h hd
  · intro b hb hn'
    simp only [] at hb hn' ⊢
    have hba : b ≠ a := by
      rintro rfl
      exact hn' c ((hmem c b).2 (.inl ⟨rfl, rfl⟩))
    rw [upd_ne _ _ hba] at hb ⊢
    exact hi.rest b hb fun d hd => hn' d ((hmem d b).2 (.inr hd))

/-- A held buffer given back to the heap. -/
theorem inv_drop {sizes : List Nat} {s : State} {v : View} (hi : Inv sizes s v) {a : Nat} (hn : ∀ d, a ∉ v.stack d) :
    Inv sizes { s with block := upd s.block a none } { v with cap := upd v.cap a none } where
  chain := hi.chain
  beyond := hi.beyond
  nodup := hi.nodup
  apart := hi.apart
  held b k' hb := by
    simp only [] at hb ⊢
    have hba : b ≠ a := by
      rintro rfl
      rw [upd_same] at hb
      simp at hb
    rw [upd_ne _ _ hba] at hb ⊢
    exact hi.held b k' hb
  pooled c b k' hb hc := by
    simp only []
    rw [upd_ne _ _ (by rintro rfl; exact hn c hb)]
    exact hi.pooled c b k' hb hc
  rest b hb hs := by
    simp only [] at hb ⊢
    by_cases hba : b = a
    · subst hba
      exact upd_same _ _ _
    · rw [upd_ne _ _ hba] at hb ⊢
      exact hi.rest b hb hs

theorem upd_id {α : Type} (f : Nat → α) (i : Nat) (x : α) (h : f i = x) : upd f i x = f := by
  funext j
  unfold upd
  split
  · subst_vars; rfl
  · rfl

theorem inv_content {sizes : List Nat} {s : State} {v : View} (hi : Inv sizes s v) (f : Nat → Nat → Byte) :
    Inv sizes { s with content := f } v :=
  ⟨hi.chain, hi.beyond, hi.nodup, hi.apart, hi.held, hi.pooled, hi.rest⟩

theorem getHeader_some {s : State} {a n : Nat} (h : s.block a = some (n + 8)) : getHeader s a = some (s.header a) := by
  unfold getHeader
  rw [h]
  simp

theorem setHeader_some {s : State} {a n : Nat} (h : s.block a = some (n + 8)) (x : Nat) :
    setHeader s a x = some { s with header := upd s.header a x } := by
  unfold setHeader
  rw [h]
  simp

theorem get_step {sizes : List Nat} (hV : Valid sizes) {s : State} {v : View} (hi : Inv sizes s v) {size : Nat}
    {nm : Bool} {m : Option Nat} {v' : View} {r : Nat} (h : View.Get sizes v nm size m v' r) :
    ∃ s', get sizes s size nm m = some (s', r) ∧ Inv sizes s' v' ∧ s'.content = s.content ∧
      (r ≠ 0 → v'.cap r = some (capacity sizes size) ∧ v.cap r = none ∧
        ∀ b, b ≠ r → v'.cap b = v.cap b) ∧ (r = 0 → v' = v) := by
  cases h with
  | nothing => exact ⟨s, by simp [get], hi, rfl, by simp, fun _ => rfl⟩
  | @reuse size c k a l m hp hk hge hlt hs =>
    have hcap := capacity_eq sizes size c k hk hge hlt
    obtain ⟨hclen, hek⟩ := List.getElem?_eq_some_iff.1 hk
    have hmem : k ∈ sizes := hek ▸ List.getElem_mem hclen
    have hk8 := hV.small k hmem
    have hh : hash sizes size = (c, k + 8) := by
      rcases hash_cases sizes hV size (.inr ⟨k, hmem, hge⟩) with ⟨c', k', e1, e2, -, e3, -⟩ | ⟨-, e2, -⟩
      · rw [hcap] at e3
        subst e3
        rw [index_unique hV hk e2]
        exact e1
      · have := e2 k hmem; omega
    obtain ⟨p1, p2⟩ := hi.pooled c r k (by rw [hs]; simp) hk
    have hch := hi.chain c hclen
    rw [hs] at hch
    obtain ⟨q1, -, -⟩ := hch
    refine ⟨_, ?_, inv_reuse hi hk hs hk8, rfl, ?_, fun h0 => absurd h0 p1⟩
    · unfold get
      rw [if_neg (by omega), hh]
      simp only []
      unfold getBuffer isExternal
      rw [if_neg (by simp; omega), if_neg (by rw [q1]; exact p1)]
      unfold poolGet
      simp only []
      rw [q1, if_pos p1, getHeader_some p2]
      simp only [Option.map_some, Option.bind_some]
      rw [if_pos p1]
      unfold poolInit
      rw [if_pos hclen]
      unfold setHeader
      simp only [p2]
      simp
    · intro _
      refine ⟨by rw [hcap]; exact upd_same _ _ _, ?_, fun b hb => upd_ne _ _ hb⟩
      cases hca : v.cap r with
      | none => rfl
      | some k' => exact absurd (by rw [hs]; simp) ((hi.held r k' hca).2.2.2.2 c)
  | @fail size m hp hb he hn =>
    refine ⟨s, ?_, hi, rfl, by simp, fun _ => rfl⟩
    unfold get
    rw [if_neg (by omega)]
    have hm : ∀ n, poolMalloc s n nm m = some (s, 0) := by
      intro n
      unfold poolMalloc
      rcases hn with rfl | rfl
      · simp
      · unfold heapMalloc
        split <;> rfl
    simp only []
    have hgb : getBuffer sizes s (hash sizes size).1 (hash sizes size).2 nm m = some (s, 0) := by
      unfold getBuffer
      rw [hm]
      split
      · rfl
      rename_i hx
      rcases hash_cases sizes hV size (.inl hb) with ⟨c, k, e1, e2, -, e3, -⟩ | ⟨e1, -⟩
      · rw [e1]
        simp only []
        have := hi.chain c (List.getElem?_eq_some_iff.1 e2).1
        rw [he c (by rw [e3]; exact e2)] at this
        exact if_pos this
      · rw [e1] at hx
        simp [isExternal] at hx
    rw [hgb]
    simp
  | @fresh size a hp hb he hn hu =>
    subst hn
    have hblk : s.block r = none := hi.rest r hu.2.1 hu.2.2
    have hm : ∀ n, poolMalloc s n false (some r) = some ({ s with block := upd s.block r (some n) }, r) := by
      intro n
      unfold poolMalloc heapMalloc
      simp [hu.1, hblk]
    have hcg := capacity_ge sizes size
    -- both cases of the hash: the buffer is malloc'ed
    have key : ∃ item, hash sizes size = (item, capacity sizes size + 8) ∧ capacity sizes size + 8 < W ∧
        Encodes sizes (capacity sizes size) (if item < sizes.length then item else capacity sizes size + 8) ∧
        getBuffer sizes s item (capacity sizes size + 8) false (some r) =
          some ({ s with block := upd s.block r (some (capacity sizes size + 8)) }, r) := by
      rcases hash_cases sizes hV size (.inl hb) with ⟨c, k, e1, e2, -, e3, -⟩ | ⟨e1, e2, e3⟩
      · obtain ⟨hclen, hek⟩ := List.getElem?_eq_some_iff.1 e2
        refine ⟨c, by rw [e3]; exact e1, ?_, ?_, ?_⟩
        · rw [e3]; exact hV.small k (hek ▸ List.getElem_mem hclen)
        · rw [if_pos hclen, e3]
          exact .inl e2
        · unfold getBuffer
          rw [hm]
          have := hi.chain c hclen
          rw [he c (by rw [e3]; exact e2)] at this
          split
          · rfl
          · exact if_pos this
      · refine ⟨sizes.length, by rw [e3]; exact e1, by rw [e3]; exact hb, ?_, ?_⟩
        · rw [if_neg (by omega), e3]
          exact .inr ⟨e2, rfl⟩
        · unfold getBuffer
          rw [hm, if_pos (by simp [isExternal])]
    obtain ⟨item, e1, e2, e3, e4⟩ := key
    refine ⟨_, ?_, inv_fresh hi hu e3 e2 s.content, rfl, ?_, fun h0 => absurd h0 hu.1⟩
    · unfold get
      rw [if_neg (by omega), e1]
      simp only []
      rw [e4, Option.bind_some]
      simp only []
      rw [if_pos hu.1]
      unfold poolInit
      rw [setHeader_some (n := capacity sizes size) (by exact upd_same _ _ _)]
      rfl
    · intro _
      exact ⟨upd_same _ _ _, hu.2.1, fun b hb => upd_ne _ _ hb⟩

theorem put_step {sizes : List Nat} (hV : Valid sizes) {s : State} {v : View} (hi : Inv sizes s v) {a : Nat} {v' : View}
    (h : View.Put sizes v a v') :
    ∃ s', put sizes s a = some s' ∧ Inv sizes s' v' ∧ s'.content = s.content ∧ v'.cap a = none ∧
      ∀ b, b ≠ a → v'.cap b = v.cap b := by
  cases h with
  | @pooled c k hc hk =>
    obtain ⟨h1, h2, h3, h4, h5⟩ := hi.held a k hc
    have hmem : k ∈ sizes := by
      obtain ⟨hl, e⟩ := List.getElem?_eq_some_iff.1 hk
      exact e ▸ List.getElem_mem hl
    rcases encodes_external hV h3 with ⟨e1, e2, -⟩ | ⟨e1, -⟩
    · have hce : s.header a = c := index_unique hV e1 hk
      have := inv_push hi hk h1 h5
      rw [upd_id s.block a _ h2] at this
      refine ⟨_, ?_, this, rfl, upd_same _ _ _, fun b hb => upd_ne _ _ hb⟩
      unfold put
      rw [if_pos h1, getHeader_some h2, Option.bind_some, if_neg (by simp [e2]), hce]
      unfold poolPut
      rw [setHeader_some h2]
      rfl
    · exact absurd (e1 k hmem) (by omega)
  | @heap k hc hk =>
    obtain ⟨h1, h2, h3, h4, h5⟩ := hi.held a k hc
    rcases encodes_external hV h3 with ⟨e1, -⟩ | ⟨-, -, e1, -⟩
    · obtain ⟨hl, e⟩ := List.getElem?_eq_some_iff.1 e1
      exact absurd (e ▸ List.getElem_mem hl) hk
    · refine ⟨_, ?_, inv_drop hi h5, rfl, upd_same _ _ _, fun b hb => upd_ne _ _ hb⟩
      unfold put
      rw [if_pos h1, getHeader_some h2, Option.bind_some, if_pos e1]
      unfold heapFree
      rw [if_pos (by simp [h2])]

theorem fill_step {sizes : List Nat} {c k : Nat} (hk : sizes[c]? = some k) {v v' : View} {n count : Nat}
    {ms : List (Option Nat)} (h : View.Fill c v n ms v' count) : ∀ (s : State) (total : Nat), Inv sizes s v →
      total + count * (k + 8) < W →
      ∃ s', preallocLoop c (k + 8) n ms total s = some (s', total + count * (k + 8)) ∧ Inv sizes s' v' ∧
        s'.content = s.content ∧ v'.cap = v.cap := by
  induction h with
  | enough => intro s total hi _; exact ⟨s, by simp [preallocLoop], hi, rfl, rfl⟩
  | @fail v n ms hm =>
    intro s total hi _
    refine ⟨s, ?_, hi, rfl, rfl⟩
    unfold preallocLoop
    rw [hm]
    simp [poolMalloc, heapMalloc]
  | @more v v' n a count ms hu t ih =>
    intro s total hi hb
    have e1 : (count + 1) * (k + 8) = count * (k + 8) + (k + 8) := by rw [Nat.succ_mul]
    have hp := inv_push hi hk hu.1 hu.2.2
    rw [upd_id v.cap a none hu.2.1] at hp
    obtain ⟨s', i1, i2, i3, i4⟩ := ih _ (total + (k + 8)) hp (by omega)
    refine ⟨s', ?_, i2, i3, i4⟩
    have hblk : s.block a = none := hi.rest a hu.2.1 hu.2.2
    unfold preallocLoop
    have e2 : poolMalloc s (k + 8) false ((some a :: ms).head?.join) =
        some ({ s with block := upd s.block a (some (k + 8)) }, a) := by
      simp [poolMalloc, heapMalloc, hu.1, hblk]
    rw [e2, Option.bind_some]
    simp only []
    rw [if_neg hu.1]
    unfold poolPut
    rw [setHeader_some (n := k) (by exact upd_same _ _ _)]
    simp only [Option.map_some, Option.bind_some, List.tail_cons]
    rw [Nat.mod_eq_of_lt (by omega), i1]
    congr 2
    omega

theorem freeList_step {sizes : List Nat} {c k : Nat} (hk : sizes[c]? = some k) : ∀ (l : List Nat) (s : State) (v : View)
    (fuel : Nat), Inv sizes s v → v.stack c = l → l.length < fuel →
      ∃ s', freeList c fuel s = some s' ∧ Inv sizes s' { v with stack := upd v.stack c [] } ∧ s'.content = s.content := by
  intro l
  have hclen : c < sizes.length := (List.getElem?_eq_some_iff.1 hk).1
  induction l with
  | nil =>
    intro s v fuel hi hs hf
    obtain ⟨fuel, rfl⟩ : ∃ j, fuel = j + 1 := ⟨fuel - 1, by omega⟩
    refine ⟨s, ?_, by rw [upd_id _ _ _ hs]; exact hi, rfl⟩
    have := hi.chain c hclen
    rw [hs] at this
    have hz : s.pool c = 0 := this
    simp [freeList, poolGet, hz]
  | cons a l ih =>
    intro s v fuel hi hs hf
    obtain ⟨fuel, rfl⟩ : ∃ j, fuel = j + 1 := ⟨fuel - 1, by omega⟩
    have hch := hi.chain c hclen
    rw [hs] at hch
    obtain ⟨q1, q2, q3⟩ := hch
    obtain ⟨p1, p2⟩ := hi.pooled c a k (by rw [hs]; simp) hk
    have hca : v.cap a = none := by
      cases hca : v.cap a with
      | none => rfl
      | some k' => exact absurd (by rw [hs]; simp) ((hi.held a k' hca).2.2.2.2 c)
    -- the state after one round
    have hsub : ∀ d b, b ∈ upd v.stack c l d → b ∈ v.stack d := by
      intro d b hb
      by_cases hd : d = c
      · subst hd
        rw [upd_same] at hb
        rw [hs]
        simp [hb]
      · rwa [upd_ne _ _ hd] at hb
    have hna : ∀ d, a ∉ upd v.stack c l d := by
      intro d hd
      have := hi.apart d c a (hsub d a hd) (by rw [hs]; simp)
      subst this
      rw [upd_same] at hd
      have := hi.nodup d
      rw [hs] at this
      simp only [List.nodup_cons] at this
      exact this.1 hd
    have hi1 : Inv sizes { s with pool := upd s.pool c (s.header a), block := upd s.block a none }
        { v with stack := upd v.stack c l } := by
      refine ⟨?_, ?_, ?_, ?_, ?_, ?_, ?_⟩
      · intro d hd
        simp only []
        by_cases hdc : d = c
        · subst hdc
          rw [upd_same, upd_same]
          exact q3
        · rw [upd_ne _ _ hdc, upd_ne _ _ hdc]
          exact hi.chain d hd
      · intro d hd
        simp only []
        rw [upd_ne _ _ (by omega)]
        exact hi.beyond d hd
      · intro d
        simp only []
        by_cases hdc : d = c
        · subst hdc
          rw [upd_same]
          have := hi.nodup d
          rw [hs] at this
          simp only [List.nodup_cons] at this
          exact this.2
        · rw [upd_ne _ _ hdc]
          exact hi.nodup d
      · intro d e b h1 h2
        exact hi.apart d e b (hsub d b h1) (hsub e b h2)
      · intro b k' hb
        simp only [] at hb ⊢
        rw [upd_ne _ _ (by rintro rfl; rw [hca] at hb; simp at hb)]
        obtain ⟨r1, r2, r3, r4, r5⟩ := hi.held b k' hb
        exact ⟨r1, r2, r3, r4, fun d hd => r5 d (hsub d b hd)⟩
      · intro d b k' hb hd
        simp only [] at hb ⊢
        rw [upd_ne _ _ (by rintro rfl; exact hna d hb)]
        exact hi.pooled d b k' (hsub d b hb) hd
      · intro b hb hn
        simp only [] at hb hn ⊢
        by_cases hba : b = a
        · subst hba
          exact upd_same _ _ _
        · rw [upd_ne _ _ hba]
          apply hi.rest b hb
          intro d hd
          by_cases hdc : d = c
          · subst hdc
            rw [hs] at hd
            have := hn d
            rw [upd_same] at this
            rcases List.mem_cons.1 hd with h | h
            · exact hba h
            · exact this h
          · have := hn d
            rw [upd_ne _ _ hdc] at this
            exact this hd
    obtain ⟨s', i1, i2, i3⟩ := ih _ _ fuel hi1 (upd_same _ _ _) (by simp at hf; omega)
    refine ⟨s', ?_, ?_, i3⟩
    · unfold freeList poolGet
      simp only []
      rw [q1, if_pos p1, getHeader_some p2]
      simp only [Option.map_some, Option.bind_some]
      rw [if_pos p1]
      unfold heapFree
      simp only [p2, Option.isSome_some, if_true, Option.bind_some]
      exact i1
    · have e : upd (upd v.stack c l) c [] = upd v.stack c [] := by
        funext d
        unfold upd
        split <;> rfl
      simp only [e] at i2
      exact i2

theorem freeLoop_step {sizes : List Nat} : ∀ (n c : Nat) (s : State) (v : View), c + n = sizes.length → Inv sizes s v →
    (∀ d, d < c → v.stack d = []) →
    ∃ F, ∀ fuel, F ≤ fuel → ∃ s', freeLoop fuel n c s = some s' ∧ Inv sizes s' { v with stack := fun _ => [] } ∧
      s'.content = s.content := by
  intro n
  induction n with
  | zero =>
    intro c s v hc hi hlow
    refine ⟨0, fun fuel _ => ⟨s, rfl, ?_, rfl⟩⟩
    have : v.stack = fun _ => [] := by
      funext d
      by_cases h : d < c
      · exact hlow d h
      · exact hi.beyond d (by omega)
    rw [← this]
    exact hi
  | succ n ih =>
    intro c s v hc hi hlow
    have hk : sizes[c]? = some sizes[c] := List.getElem?_eq_getElem (by omega)
    -- the state after the first list does not depend on the fuel, if that is enough
    obtain ⟨s1, e1, i1, f1⟩ := freeList_step hk (v.stack c) s v ((v.stack c).length + 1) hi rfl (by omega)
    have hmono : ∀ (f : Nat) (s s' : State), freeList c f s = some s' → ∀ g, f ≤ g → freeList c g s = some s' := by
      intro f
      induction f with
      | zero => intro s s' h; simp [freeList] at h
      | succ f ih =>
        intro s s' h g hg
        obtain ⟨g, rfl⟩ : ∃ j, g = j + 1 := ⟨g - 1, by omega⟩
        unfold freeList at h ⊢
        rw [Option.bind_eq_some_iff] at h ⊢
        obtain ⟨sb, hb1, hb2⟩ := h
        refine ⟨sb, hb1, ?_⟩
        by_cases hz : sb.2 ≠ 0
        · rw [if_pos hz] at hb2 ⊢
          rw [Option.bind_eq_some_iff] at hb2 ⊢
          obtain ⟨t, ht1, ht2⟩ := hb2
          exact ⟨t, ht1, ih t s' ht2 g (by omega)⟩
        · rw [if_neg hz] at hb2 ⊢
          exact hb2
    obtain ⟨F, hF⟩ := ih (c + 1) s1 _ (by omega) i1 (fun d hd => by
      simp only []
      by_cases hdc : d = c
      · subst hdc
        exact upd_same _ _ _
      · rw [upd_ne _ _ hdc]
        exact hlow d (by omega))
    refine ⟨max F ((v.stack c).length + 1), fun fuel hfu => ?_⟩
    obtain ⟨s', g1, g2, g3⟩ := hF fuel (by omega)
    refine ⟨s', ?_, g2, by rw [g3, f1]⟩
    unfold freeLoop
    rw [hmono _ _ _ e1 fuel (by omega)]
    exact g1

/-- What a call does to the bytes of the buffers. -/
def ContentOk (o : Op) (v v' : View) (r : Nat) (s s' : State) : Prop :=
  (∀ b k, v.cap b = some k → v'.cap b = some k → (∀ i x, o ≠ .write b i x) →
      ∀ i, i < k → s'.content b i = s.content b i) ∧
    match o with
    | .realloc a size _ _ => ∀ k, v.cap a = some k → r ≠ 0 → ∀ i, i < k → i < size → s'.content r i = s.content a i
    | .calloc n size _ _ => r ≠ 0 → ∀ i, i < n * size → s'.content r i = 0
    | .write a i x => s'.content a i = x ∧ ∀ j, j ≠ i → s'.content a j = s.content a j
    | _ => True

theorem step_inv {sizes : List Nat} (hV : Valid sizes) {s : State} {v : View} (hi : Inv sizes s v) {o : Op} {v' : View}
    {r : Nat} (h : View.Step sizes v o v' r) :
    ∃ F s', (∀ fuel, F ≤ fuel → step fuel sizes s o = some (s', r)) ∧ Inv sizes s' v' ∧ ContentOk o v v' r s s' := by
  cases h with
  | malloc h =>
    obtain ⟨s', e, i, f, -⟩ := get_step hV hi h
    exact ⟨0, s', fun _ _ => e, i, fun b k _ _ _ j _ => by rw [f], trivial⟩
  | free h =>
    obtain ⟨s', e, i, f, -⟩ := put_step hV hi h
    exact ⟨0, s', fun _ _ => by simp only [step, e, Option.map_some], i, fun b k _ _ _ j _ => by rw [f], trivial⟩
  | freeNull => exact ⟨0, s, fun _ _ => by simp [step, put], hi, fun b k _ _ _ j _ => rfl, trivial⟩
  | reallocNull h =>
    obtain ⟨s', e, i, f, -⟩ := get_step hV hi h
    refine ⟨0, s', fun _ _ => by simp only [step, realloc, if_true]; exact e, i, fun b k _ _ _ j _ => by rw [f], ?_⟩
    intro k hk
    exact absurd rfl (hi.held 0 k hk).1
  | @reallocFree a nm m v' h =>
    obtain ⟨s', e, i, f, -⟩ := put_step hV hi h
    have ha : a ≠ 0 := by
      cases h with
      | pooled hc _ => exact (hi.held a _ hc).1
      | heap hc _ => exact (hi.held a _ hc).1
    refine ⟨0, s', fun _ _ => by simp only [step, realloc, if_true, e, Option.map_some]; rw [if_neg ha], i, fun b k _ _ _ j _ => by rw [f], ?_⟩
    intro k _ h0
    exact absurd rfl h0
  | @reallocSame _ size nm m hp hb hc =>
    obtain ⟨h1, h2, h3, h4, h5⟩ := hi.held r _ hc
    have hh : (hash sizes size).2 = capacity sizes size + 8 := by
      rcases hash_cases sizes hV size (.inl hb) with ⟨c, k, e1, e2, -, e3, -⟩ | ⟨e1, e2, e3⟩
      · rw [e1, e3]
      · rw [e1, e3]
    have he : effective sizes (s.header r) = capacity sizes size + 8 := by
      rcases encodes_external hV h3 with ⟨-, -, e⟩ | ⟨-, -, -, e⟩ <;> exact e
    refine ⟨0, s, fun _ _ => ?_, hi, fun b k _ _ _ j _ => rfl, fun k _ _ i _ _ => rfl⟩
    simp only [step, realloc]
    rw [if_neg h1, if_neg (by omega), getHeader_some h2, Option.bind_some, if_pos (by rw [he, hh])]
  | @reallocMove a size k nm m v1 v' r hp hb hc hne hg hput =>
    obtain ⟨h1, h2, h3, h4, h5⟩ := hi.held a k hc
    have hh : (hash sizes size).2 = capacity sizes size + 8 := by
      rcases hash_cases sizes hV size (.inl hb) with ⟨c, k', e1, e2, -, e3, -⟩ | ⟨e1, e2, e3⟩
      · rw [e1, e3]
      · rw [e1, e3]
    have he : effective sizes (s.header a) = k + 8 := by
      rcases encodes_external hV h3 with ⟨-, -, e⟩ | ⟨-, -, -, e⟩ <;> exact e
    have hlen : (k + 8 + W - 8) % W = k := by
      rw [show k + 8 + W - 8 = k + W by omega, Nat.add_mod_right, Nat.mod_eq_of_lt (by omega)]
    obtain ⟨s1, e1, i1, f1, g1, g2⟩ := get_step hV hi hg
    by_cases hr : r = 0
    · subst hr
      obtain ⟨s', e, i, f, -⟩ := put_step hV i1 hput
      refine ⟨0, s', fun _ _ => ?_, i, fun b k _ _ _ j _ => by rw [f, f1], fun _ _ h0 => absurd rfl h0⟩
      simp only [step, realloc]
      rw [if_neg h1, if_neg (by omega), getHeader_some h2, Option.bind_some, if_neg (by rw [he, hh]; omega), e1,
        Option.bind_some]
      simp only [ne_eq, not_true_eq_false, if_false, Option.bind_some, e, Option.map_some]
    · obtain ⟨c1, c2, c3⟩ := g1 hr
      have hra : a ≠ r := by
        rintro rfl
        rw [hc] at c2
        simp at c2
      have ha1 : v1.cap a = some k := by rw [c3 a hra]; exact hc
      obtain ⟨-, b1, -⟩ := i1.held r _ c1
      obtain ⟨-, b2, -⟩ := i1.held a _ ha1
      have hcg := capacity_ge sizes size
      have hin : ∀ n, n ≤ size → n ≤ k → copy s1 r a n = some { s1 with
          content := upd s1.content r fun i => if i < n then s1.content a i else s1.content r i } := by
        intro n hn1 hn2
        unfold copy
        rw [if_pos]
        simp only [inPayload, b1, b2, decide_eq_true_eq]
        omega
      obtain ⟨s', e, i, f, -, q⟩ := put_step hV (inv_content i1 (upd s1.content r fun i =>
        if i < (if size < k then size else k) then s1.content a i else s1.content r i)) hput
      refine ⟨0, s', fun _ _ => ?_, i, ?_, ?_⟩
      · simp only [step, realloc]
        rw [if_neg h1, if_neg (by omega), getHeader_some h2, Option.bind_some, if_neg (by rw [he, hh]; omega), e1,
          Option.bind_some]
        simp only [ne_eq, hr, not_false_eq_true, if_true]
        rw [he, hlen, hin _ (by split <;> omega) (by split <;> omega), Option.bind_some, e]
        rfl
      · intro b kb hb1 _ _ j _
        rw [f]
        simp only []
        rw [upd_ne _ _ (by rintro rfl; rw [hb1] at c2; simp at c2), f1]
      · intro k' hk' _ j hj1 hj2
        rw [hc] at hk'
        obtain rfl := Option.some.inj hk'
        rw [f]
        simp only []
        rw [upd_same, if_pos (by split <;> omega), f1]
  | @calloc n size nm m v' r hb h =>
    obtain ⟨s1, e1, i1, f1, g1, g2⟩ := get_step hV hi h
    by_cases hr : r = 0
    · subst hr
      refine ⟨0, s1, fun _ _ => ?_, i1, fun b k _ _ _ j _ => by rw [f1], fun h0 => absurd rfl h0⟩
      simp only [step, Buffer.calloc]
      rw [Nat.mod_eq_of_lt hb, e1]
      simp
    · obtain ⟨c1, c2, c3⟩ := g1 hr
      obtain ⟨-, b1, -⟩ := i1.held r _ c1
      have hcg := capacity_ge sizes (n * size)
      refine ⟨0, { s1 with content := upd s1.content r fun i => if i < n * size then 0 else s1.content r i },
        fun _ _ => ?_, inv_content i1 _, ?_, ?_⟩
      · simp only [step, Buffer.calloc]
        rw [Nat.mod_eq_of_lt hb, e1, Option.bind_some]
        simp only [ne_eq, hr, not_false_eq_true, if_true]
        unfold zero
        rw [if_pos]
        · rfl
        · simp only [inPayload, b1, decide_eq_true_eq]
          omega
      · intro b kb hb1 _ _ j _
        simp only []
        rw [upd_ne _ _ (by rintro rfl; rw [hb1] at c2; simp at c2), f1]
      · intro _ j hj
        simp only []
        rw [upd_same, if_pos hj]
  | @preallocNone n size ms h =>
    refine ⟨0, s, fun _ _ => ?_, hi, fun b k _ _ _ j _ => rfl, trivial⟩
    simp only [step, Buffer.prealloc]
    by_cases h0 : size = 0
    · rw [if_pos h0]
    · rw [if_neg h0]
      by_cases h1 : n = 0
      · rw [if_pos h1]
      · rw [if_neg h1, if_pos]
        rcases h with h | h | h
        · exact absurd h h1
        · exact absurd h h0
        · obtain ⟨j, j1, j2, j3, j4⟩ := hashLoop_spec size sizes 0
          have hj : j = sizes.length := by
            rcases Nat.lt_or_ge j sizes.length with hlt | hge
            · have := j4 _ (List.getElem?_eq_getElem hlt)
              have := h _ (List.getElem_mem hlt)
              omega
            · omega
          have hc := hV.count
          simp only [isExternal, hash, j1, hj, Nat.zero_add, Nat.mod_eq_of_lt hc]
          simp
  | @prealloc n size c k count ms v' hp hk hge hlt hf hb =>
    have hcap := capacity_eq sizes size c k hk hge hlt
    obtain ⟨hclen, hek⟩ := List.getElem?_eq_some_iff.1 hk
    have hmem : k ∈ sizes := hek ▸ List.getElem_mem hclen
    have hh : hash sizes size = (c, k + 8) := by
      rcases hash_cases sizes hV size (.inr ⟨k, hmem, hge⟩) with ⟨c', k', e1, e2, -, e3, -⟩ | ⟨-, e2, -⟩
      · rw [hcap] at e3
        subst e3
        rw [index_unique hV hk e2]
        exact e1
      · have := e2 k hmem; omega
    obtain ⟨s', e, i, f, g⟩ := fill_step hk hf s 0 hi (by simpa using hb)
    refine ⟨0, s', fun _ _ => ?_, i, fun b k _ _ _ j _ => by rw [f], trivial⟩
    simp only [step, Buffer.prealloc, hh]
    rw [if_neg (by omega)]
    by_cases h1 : n = 0
    · subst h1
      rw [if_pos rfl]
      cases hf
      simp only [preallocLoop, Option.some.injEq, Prod.mk.injEq] at e
      rw [← e.1]
      simp
    · rw [if_neg h1, if_neg (by simp [isExternal]; omega), e, Nat.zero_add]
  | fini =>
    obtain ⟨F, hF⟩ := freeLoop_step sizes.length 0 s v (by omega) hi (by simp)
    obtain ⟨s', e, i, f⟩ := hF F (Nat.le_refl F)
    refine ⟨F, s', fun fuel hfu => ?_, i, fun b k _ _ _ j _ => by rw [f], trivial⟩
    obtain ⟨s2, e2, i2, f2⟩ := hF fuel hfu
    have hmono : ∀ (c f : Nat) (s s' : State), freeList c f s = some s' → ∀ g, f ≤ g → freeList c g s = some s' := by
      intro c f
      induction f with
      | zero => intro s s' h; simp [freeList] at h
      | succ f ih =>
        intro s s' h g hg
        obtain ⟨g, rfl⟩ : ∃ j, g = j + 1 := ⟨g - 1, by omega⟩
        unfold freeList at h ⊢
        rw [Option.bind_eq_some_iff] at h ⊢
        obtain ⟨sb, hb1, hb2⟩ := h
        refine ⟨sb, hb1, ?_⟩
        by_cases hz : sb.2 ≠ 0
        · rw [if_pos hz] at hb2 ⊢
          rw [Option.bind_eq_some_iff] at hb2 ⊢
          obtain ⟨t, ht1, ht2⟩ := hb2
          exact ⟨t, ht1, ih t s' ht2 g (by omega)⟩
        · rw [if_neg hz] at hb2 ⊢
          exact hb2
    have hm2 : ∀ (n c : Nat) (s s' : State), freeLoop F n c s = some s' → freeLoop fuel n c s = some s' := by
      intro n
      induction n with
      | zero => intro c s s' h; exact h
      | succ n ih =>
        intro c s s' h
        unfold freeLoop at h ⊢
        rw [Option.bind_eq_some_iff] at h ⊢
        obtain ⟨t, ht1, ht2⟩ := h
        exact ⟨t, hmono _ _ _ _ ht1 _ hfu, ih _ _ _ ht2⟩
    simp only [step, Buffer.fini, hm2 _ _ _ _ e, Option.map_some]
  | @write a i k b hc hlt =>
    obtain ⟨h1, h2, h3, h4, h5⟩ := hi.held a k hc
    refine ⟨0, { s with content := upd s.content a (upd (s.content a) i b) }, fun _ _ => ?_, inv_content hi _, ?_, ?_⟩
    · simp only [step, Buffer.write]
      rw [if_pos]
      · rfl
      · simp only [inPayload, h2, decide_eq_true_eq]
        omega
    · intro b' k' _ _ hne j _
      simp only []
      rw [upd_ne _ _ (by rintro rfl; exact hne i b rfl)]
    · simp only []
      rw [upd_same]
      exact ⟨upd_same _ _ _, fun j hj => upd_ne _ _ hj⟩

theorem run_inv {sizes : List Nat} (hV : Valid sizes) {os : List Op} {v v' : View} {rs : List Nat}
    (h : View.Run sizes v os v' rs) : ∀ s, Inv sizes s v →
      ∃ F s', (∀ fuel, F ≤ fuel → run fuel sizes s os = some (s', rs)) ∧ Inv sizes s' v' := by
  induction h with
  | nil => exact fun s hi => ⟨0, s, fun _ _ => rfl, hi⟩
  | cons hs _ ih =>
    intro s hi
    obtain ⟨F1, s1, e1, i1, -⟩ := step_inv hV hi hs
    obtain ⟨F2, s2, e2, i2⟩ := ih s1 i1
    refine ⟨max F1 F2, s2, fun fuel hf => ?_, i2⟩
    simp only [run, e1 fuel (by omega), Option.bind_some, e2 fuel (by omega), Option.map_some]

theorem get_total {sizes : List Nat} (hV : Valid sizes) (v : View) (size : Nat) (nm : Bool) (m : Option Nat)
    (hb : size + 8 < 2 ^ 64) (hm : ∀ a, m = some a → v.Unused a) : ∃ v' r, View.Get sizes v nm size m v' r := by
  by_cases h0 : size = 0
  · subst h0
    exact ⟨v, 0, .nothing⟩
  have hp : 0 < size := by omega
  have hno : (∀ c, sizes[c]? = some (capacity sizes size) → v.stack c = []) → ∃ v' r, View.Get sizes v nm size m v' r := by
    intro he
    cases nm with
    | true => exact ⟨v, 0, .fail hp hb he (.inl rfl)⟩
    | false =>
      cases m with
      | none => exact ⟨v, 0, .fail hp hb he (.inr rfl)⟩
      | some a => exact ⟨_, a, .fresh hp hb he rfl (hm a rfl)⟩
  rcases hash_cases sizes hV size (.inl hb) with ⟨c, k, -, e2, e3, e4, e5⟩ | ⟨-, e2, e3⟩
  · cases hs : v.stack c with
    | nil => exact hno fun d hd => by rw [e4] at hd; rw [index_unique hV hd e2]; exact hs
    | cons a l => exact ⟨_, a, .reuse hp e2 e3 e5 hs⟩
  · exact hno fun d hd => by
      obtain ⟨hl, e⟩ := List.getElem?_eq_some_iff.1 hd
      have := e2 _ (e ▸ List.getElem_mem hl)
      omega

theorem put_total {sizes : List Nat} (v : View) (a k : Nat) (hc : v.cap a = some k) : ∃ v', View.Put sizes v a v' := by
  by_cases hk : k ∈ sizes
  · obtain ⟨c, hc'⟩ := List.mem_iff_getElem?.1 hk
    exact ⟨_, .pooled hc hc'⟩
  · exact ⟨_, .heap hc hk⟩

end Diminuto.Buffer
