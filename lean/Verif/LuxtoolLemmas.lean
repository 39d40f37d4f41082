import Verif.LuxtoolSpec
import Verif.LuxProps
import Verif.LineLemmas

/-! # Lemmas about reading a light sensor, and the tool that computes the brightness -/

namespace Diminuto.Luxtool

theorem word (lo hi : Byte) : ((hi.setWidth 16 <<< 8) ||| lo.setWidth 16 : BitVec 16).toNat = lo.toNat + 256 * hi.toNat := by
  have h1 := lo.isLt
  have h2 := hi.isLt
  have e1 : hi.toNat % 2 ^ 16 = hi.toNat := Nat.mod_eq_of_lt (by omega)
  have e2 : lo.toNat % 2 ^ 16 = lo.toNat := Nat.mod_eq_of_lt (by omega)
  have e3 : hi.toNat <<< 8 % 2 ^ 16 = hi.toNat <<< 8 := by
    rw [Nat.shiftLeft_eq]
    exact Nat.mod_eq_of_lt (by omega)
  rw [BitVec.toNat_or, BitVec.toNat_shiftLeft, BitVec.toNat_setWidth, BitVec.toNat_setWidth, e1, e2, e3, ← Nat.shiftLeft_add_eq_or_of_lt h1, Nat.shiftLeft_eq]
  omega

theorem strtoull_operand (t : List Byte) (v : Nat) : ((Number.strtoull t).2.1 = [] ∧ (Number.strtoull t).1 = v) ↔ Operand t v := by
  by_cases h : t = []
  · subst h
    have h0 : Number.strtoull [] = (0, [], none) := by decide
    rw [h0]
    unfold Operand
    constructor
    · rintro ⟨-, rfl⟩
      exact .inl ⟨rfl, rfl⟩
    · rintro (⟨-, rfl⟩ | ⟨h, -⟩)
      · exact ⟨rfl, rfl⟩
      · exact absurd rfl h
  · rw [Line.strtoull_iff t h v]
    unfold Operand
    constructor
    · exact fun g => .inr ⟨h, g⟩
    · rintro (⟨g, -⟩ | ⟨-, g⟩)
      · exact absurd g h
      · exact g

/-- The least value is kept. -/
theorem fold_min (f : Nat → Nat → Rat) (l : List (Nat × Nat)) (lo hi : Nat × Nat × Rat) (h : ∀ x ∈ l, lo.2.2 ≤ f x.1 x.2) : (l.foldl (visit f) (lo, hi)).1 = lo := by
  induction l generalizing hi with
  | nil => rfl
  | cons x l ih =>
    have hx := h x List.mem_cons_self
    rw [List.foldl_cons, visit, if_neg (not_lt.2 hx)]
    exact ih _ fun y hy => h y (List.mem_cons_of_mem _ hy)

/-- The greatest value is kept. -/
theorem fold_max (f : Nat → Nat → Rat) (l : List (Nat × Nat)) (lo hi : Nat × Nat × Rat) (h : ∀ x ∈ l, f x.1 x.2 ≤ hi.2.2) : (l.foldl (visit f) (lo, hi)).2 = hi := by
  induction l generalizing lo with
  | nil => rfl
  | cons x l ih =>
    have hx := h x List.mem_cons_self
    rw [List.foldl_cons, visit, if_neg (not_lt.2 hx)]
    exact ih _ fun y hy => h y (List.mem_cons_of_mem _ hy)

/-- The first greatest value is found. -/
theorem fold_first (f : Nat → Nat → Rat) (l m : List (Nat × Nat)) (x : Nat × Nat) (lo hi : Nat × Nat × Rat) (h0 : hi.2.2 < f x.1 x.2) (hl : ∀ y ∈ l, f y.1 y.2 < f x.1 x.2)
    (hm : ∀ y ∈ m, f y.1 y.2 ≤ f x.1 x.2) : ((l ++ x :: m).foldl (visit f) (lo, hi)).2 = (x.1, x.2, f x.1 x.2) := by
  induction l generalizing lo hi with
  | nil =>
    rw [List.nil_append, List.foldl_cons, visit, if_pos h0]
    exact fold_max f m _ _ hm
  | cons y l ih =>
    rw [List.cons_append, List.foldl_cons, visit]
    refine ih _ _ ?_ fun z hz => hl z (List.mem_cons_of_mem _ hz)
    split
    · exact hl y List.mem_cons_self
    · exact h0

theorem raws_first (n : Nat) : ∃ l, raws (n + 1) = (0, 0) :: l := by
  rw [raws, List.range_succ_eq_map, List.flatMap_cons, List.map_cons]
  exact ⟨_, rfl⟩

theorem raws_last (n : Nat) : ∃ l m, raws (n + 1) = l ++ (n, 0) :: m ∧ (∀ y ∈ l, y.1 < n) ∧ (∀ y ∈ l, y ∈ raws (n + 1)) ∧ ∀ y ∈ m, y ∈ raws (n + 1) := by
  have e : raws (n + 1) = ((List.range n).flatMap fun a => (List.range (n + 1)).map fun b => (a, b)) ++ (n, 0) :: ((List.range n).map Nat.succ).map fun b => (n, b) := by
    conv_lhs => rw [raws, List.range_succ, List.flatMap_append, List.flatMap_singleton, ← List.range_succ]
    congr 1
    rw [List.range_succ_eq_map, List.map_cons]
  refine ⟨_, _, e, ?_, ?_, ?_⟩
  · intro y hy
    simp only [List.mem_flatMap, List.mem_range, List.mem_map] at hy
    obtain ⟨a, ha, b, -, rfl⟩ := hy
    exact ha
  · intro y hy
    rw [e]
    exact List.mem_append_left _ hy
  · intro y hy
    rw [e]
    exact List.mem_append_right _ (List.mem_cons_of_mem _ hy)

theorem mem_raws (n : Nat) (y : Nat × Nat) : y ∈ raws n ↔ y.1 < n ∧ y.2 < n := by
  simp only [raws, List.mem_flatMap, List.mem_range, List.mem_map]
  constructor
  · rintro ⟨a, ha, b, hb, rfl⟩
    exact ⟨ha, hb⟩
  · rintro ⟨h1, h2⟩
    exact ⟨y.1, h1, y.2, h2, rfl⟩

end Diminuto.Luxtool
