import Verif.ScatterGatherLemmas2

/-!
# Lemmas: the calls of Scatter/Gather
-/

namespace Diminuto.ScatterGather

open Diminuto.DList Diminuto.Well

variable {N : Nat}

/-- What may be on a list: spare nodes in a pool, segments on a record. -/
def Fits : Role → Role → Prop
  | .pool, .spare => True
  | .record, .segment _ => True
  | _, _ => False

/-- Pools have spare nodes, records have segments. -/
def Roles (v : View N) : Prop := ∀ p, ∀ n ∈ v.queue p, Fits (v.role p) (v.role n)

/-- What holds between state and specification. -/
structure Inv (s : State N) (v : View N) : Prop where
  holds : Holds s.heap v.queue
  roles : Roles v
  mem : Mem s.data s.bufs v.role

theorem Roles.root {v : View N} (h : Roles v) {r : Fin N} (hr : v.role r = .pool ∨ v.role r = .record ∨ v.role r = .idle)
    (p : Fin N) : r ∉ v.queue p := by
  intro hm
  have := h p r hm
  rcases hr with hr | hr | hr <;> rw [hr] at this <;> cases hp : v.role p <;> rw [hp] at this <;> exact this

theorem Roles.empty {v : View N} (h : Roles v) {n : Fin N} (h1 : v.role n ≠ .pool) (h2 : v.role n ≠ .record) :
    v.queue n = [] := by
  cases hq : v.queue n with
  | nil => rfl
  | cons x l =>
    have := h n x (by rw [hq]; simp)
    cases hn : v.role n with
    | pool => exact absurd hn h1
    | record => exact absurd hn h2
    | _ => rw [hn] at this; exact absurd this (by simp [Fits])

theorem Roles.segments {v : View N} (h : Roles v) {r : Fin N} (hr : v.role r = .record) :
    ∀ n ∈ v.queue r, ∃ g, v.role n = .segment g := by
  intro n hn
  have := h r n hn
  rw [hr] at this
  cases hx : v.role n with
  | segment g => exact ⟨g, rfl⟩
  | _ => rw [hx] at this; exact absurd this (by simp [Fits])

theorem Roles.spares {v : View N} (h : Roles v) {r : Fin N} (hr : v.role r = .pool) :
    ∀ n ∈ v.queue r, v.role n = .spare := by
  intro n hn
  have := h r n hn
  rw [hr] at this
  cases hx : v.role n with
  | spare => rfl
  | _ => rw [hx] at this; exact absurd this (by simp [Fits])

theorem inv_start (pools : Fin N → Bool) : Inv (start N) (View.start pools) where
  holds := fresh_holds N
  roles := by
    intro p n hn
    simp [View.start] at hn
  mem := by
    constructor
    · intro n g h
      simp only [View.start] at h
      split at h <;> simp at h
    · intro n _; rfl
    · intro n g n' g' h
      simp only [View.start] at h
      split at h <;> simp at h
    · intro b hb
      exact absurd rfl hb

/-! ## Freeing -/

/-- What freeing a node does. -/
def View.freed (v : View N) (p n : Fin N) : View N :=
  ⟨set (without v.queue n) p (v.queue p ++ [n]), set v.role n .spare⟩

theorem roles_freed {v : View N} {h : Heap N} (hh : Holds h v.queue) (hr : Roles v) {p n : Fin N} (hp : v.role p = .pool)
    (hn : v.role n ≠ .pool) (hq : v.queue n = []) : Roles (v.freed p n) := by
  have hm := mem_without hh n
  intro x y hy
  unfold View.freed set at *
  simp only [] at hy ⊢
  have hxn : x ≠ n := by
    rintro rfl
    split at hy
    · rename_i he
      rw [he] at hn
      exact hn hp
    · rw [hm, hq] at hy
      simp at hy
  rw [if_neg hxn]
  split at hy
  · rename_i he
    subst he
    rw [hp]
    split
    · trivial
    · rename_i hyn
      simp only [List.mem_append, List.mem_singleton, hyn, or_false] at hy
      have := hr x y hy
      rw [hp] at this
      exact this
  · rw [hm] at hy
    rw [if_neg hy.1]
    exact hr x y hy.2

/-- Putting a node that is on no list in a pool. -/
theorem poolPut_loose {s : State N} {v : View N} (hh : Holds s.heap v.queue) {p n : Fin N}
    (hl : ∀ x, p ∉ v.queue x) (hn : ∀ x, n ∉ v.queue x) (hq : v.queue n = []) (hne : n ≠ p) :
    ∃ h', poolPut s p n = some ⟨h', set s.data n none, s.bufs⟩ ∧
      Holds h' (set (without v.queue n) p (v.queue p ++ [n])) := by
  obtain ⟨h', e, i⟩ := enqueue_holds hh hl (hn p) hq hne
  refine ⟨h', ?_, i⟩
  unfold poolPut nullinit dataset
  simp only [init_holds hh hn hq, e, Option.map_some]
  rfl

theorem put_inv {s : State N} {v : View N} (hi : Inv s v) {p n : Fin N} (hp : v.role p = .pool)
    (hn : v.role n = .idle) : ∃ s', poolPut s p n = some s' ∧ Inv s' (v.freed p n) := by
  have hq := hi.roles.empty (n := n) (by rw [hn]; simp) (by rw [hn]; simp)
  obtain ⟨h', e, i⟩ := poolPut_loose hi.holds (hi.roles.root (Or.inl hp)) (hi.roles.root (Or.inr (Or.inr hn))) hq
    (by rintro rfl; rw [hp] at hn; simp at hn)
  refine ⟨_, e, i, roles_freed hi.holds hi.roles hp (by rw [hn]; simp) hq, ?_⟩
  have hd : set s.data n none = s.data := by
    funext x
    unfold set
    split
    · rename_i hx
      rw [hx, hi.mem.other n (by rw [hn]; simp)]
    · rfl
  rw [hd]
  apply hi.mem.congr
  intro x g
  unfold View.freed set
  simp only []
  by_cases hx : x = n
  · rw [if_pos hx, hx, hn]
    simp
  · rw [if_neg hx]

theorem without_twice {q : Fin N → List (Fin N)} {h : Heap N} (hh : Holds h q) (n : Fin N) :
    without (without q n) n = without q n := without_of_not_mem (not_mem_without hh n)

theorem segmentFree_inv {s : State N} {v : View N} (hi : Inv s v) {p n : Fin N} {g : Segment} (hp : v.role p = .pool)
    (hn : v.role n = .segment g) : ∃ s', segmentFree s p n = some s' ∧ Inv s' (v.freed p n) := by
  have hq := hi.roles.empty (n := n) (by rw [hn]; simp) (by rw [hn]; simp)
  obtain ⟨m1, m2, m3⟩ := hi.mem.seg n g hn
  have hnp : n ∉ v.queue p := by
    intro hm
    have := hi.roles.spares hp n hm
    rw [hn] at this
    simp at this
  have hne : n ≠ p := by rintro rfl; rw [hp] at hn; simp at hn
  obtain ⟨h1, e1, i1⟩ := remove_holds hi.holds hq
  obtain ⟨h2, e2, i2⟩ := poolPut_loose (s := ⟨h1, set s.data n none, set s.bufs g.address none⟩)
    (v := ⟨without v.queue n, v.role⟩) (p := p) (n := n) i1
    (fun x hx => hi.roles.root (Or.inl hp) x ((mem_without hi.holds n x p).1 hx).2)
    (not_mem_without hi.holds n) (by simp only [without, hq]; rfl) hne
  simp only [] at i2
  rw [without_twice hi.holds, without_eq hnp] at i2
  refine ⟨⟨h2, set (set s.data n none) n none, set s.bufs g.address none⟩, ?_, i2,
    roles_freed hi.holds hi.roles hp (by rw [hn]; simp) hq, ?_⟩
  rotate_left
  · simp only []
    have : set (set s.data n none) n none = set s.data n none := by
      funext x
      unfold set
      split <;> rfl
    rw [this]
    exact hi.mem.drop hn (by simp)
  · unfold segmentFree bufferFree
    simp only [m1, m2]
    rw [if_neg (by simp), Option.bind_some]
    unfold nodeFini
    simp only [e1, Option.map_some, Option.bind_some]
    rw [← e2]
    rfl

theorem recordSegmentFree_inv {s : State N} {v : View N} (hi : Inv s v) {p n : Fin N} {g : Segment} (hp : v.role p = .pool)
    (hn : v.role n = .segment g) : ∃ s', recordSegmentFree s p n = some s' ∧ Inv s' (v.freed p n) := by
  have hq := hi.roles.empty (n := n) (by rw [hn]; simp) (by rw [hn]; simp)
  have hnp : n ∉ v.queue p := by
    intro hm
    have := hi.roles.spares hp n hm
    rw [hn] at this
    simp at this
  obtain ⟨h1, e1, i1⟩ := remove_holds hi.holds hq
  have hi1 : Inv { s with heap := h1 } ⟨without v.queue n, v.role⟩ :=
    ⟨i1, fun x y hy => hi.roles x y ((mem_without hi.holds n x y).1 hy).2, hi.mem⟩
  obtain ⟨s', e2, i2⟩ := segmentFree_inv hi1 hp hn
  refine ⟨s', ?_, ?_⟩
  · unfold recordSegmentFree
    rw [e1, Option.bind_some, e2]
  · unfold View.freed at i2 ⊢
    simp only [] at i2
    rw [without_twice hi.holds, without_eq hnp] at i2
    exact i2

/-- What freeing all segments of a record does. -/
def View.freedAll (v : View N) (p r : Fin N) : View N :=
  ⟨set (set v.queue r []) p (v.queue p ++ v.queue r), fun x => if x ∈ v.queue r then .spare else v.role x⟩

theorem segmentsFree_inv (l : List (Fin N)) : ∀ (s : State N) (v : View N) (p r : Fin N) (fuel : Nat), Inv s v →
    v.role p = .pool → v.role r = .record → v.queue r = l → l.length < fuel →
    ∃ s', segmentsFree p r fuel s = some s' ∧ Inv s' (v.freedAll p r) := by
  induction l with
  | nil =>
    intro s v p r fuel hi hp hr hl hf
    obtain ⟨fuel, rfl⟩ : ∃ k, fuel = k + 1 := ⟨fuel - 1, by simp at hf; omega⟩
    have e : v.freedAll p r = v := by
      unfold View.freedAll
      rw [hl]
      cases v with
      | mk q ro =>
        simp only [List.append_nil, List.not_mem_nil, if_false, View.mk.injEq, and_true]
        funext x
        unfold set
        simp only [] at hl
        by_cases h1 : x = p
        · rw [if_pos h1, h1]
        · rw [if_neg h1]
          split
          · rename_i h2
            rw [h2, hl]
          · rfl
    refine ⟨s, ?_, by rw [e]; exact hi⟩
    unfold segmentsFree
    rw [head_holds hi.holds (hi.roles.root (Or.inr (Or.inl hr))), hl]
    rfl
  | cons n l ih =>
    intro s v p r fuel hi hp hr hl hf
    obtain ⟨fuel, rfl⟩ : ∃ k, fuel = k + 1 := ⟨fuel - 1, by simp at hf; omega⟩
    obtain ⟨g, hn⟩ := hi.roles.segments hr n (by rw [hl]; simp)
    obtain ⟨s1, e1, i1⟩ := recordSegmentFree_inv hi hp hn
    have hpr : r ≠ p := by rintro rfl; rw [hp] at hr; simp at hr
    have hnr : r ≠ n := by rintro rfl; rw [hr] at hn; simp at hn
    have hnp : p ≠ n := by rintro rfl; rw [hp] at hn; simp at hn
    have hnd := hi.holds.nodup r
    rw [hl, List.nodup_cons, List.nodup_cons] at hnd
    have hq1 : (v.freed p n).queue r = l := by
      unfold View.freed set without
      simp only []
      rw [if_neg hpr, hl]
      simp
    obtain ⟨s2, e2, i2⟩ := ih s1 (v.freed p n) p r fuel i1
      (by unfold View.freed set; simp only []; rw [if_neg hnp]; exact hp)
      (by unfold View.freed set; simp only []; rw [if_neg hnr]; exact hr) hq1 (by simp at hf; omega)
    refine ⟨s2, ?_, ?_⟩
    · unfold segmentsFree
      rw [head_holds hi.holds (hi.roles.root (Or.inr (Or.inl hr))), hl]
      simp only [List.head?_cons]
      rw [e1, Option.bind_some, e2]
    · have : (v.freed p n).freedAll p r = v.freedAll p r := by
        unfold View.freedAll
        rw [hq1, hl]
        unfold View.freed
        congr 1
        · funext x
          simp only [set, if_true]
          by_cases h1 : x = p
          · simp [h1]
          · rw [if_neg h1, if_neg h1]
            by_cases h2 : x = r
            · simp [h2, hpr]
            · rw [if_neg h2, if_neg h2]
              simp only [h1, if_false]
              exact without_eq fun hm => h2 (hi.holds.uniq hm (by rw [hl]; simp))
        · funext x
          simp only [set, List.mem_cons]
          by_cases h1 : x ∈ l
          · simp [h1]
          · simp [h1]
      rw [this] at i2
      exact i2

end Diminuto.ScatterGather
