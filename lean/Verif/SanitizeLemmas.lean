import Verif.Sanitize

/-!
# Lemmas on the context of a daemon
-/

namespace Diminuto.Sanitize

theorem lowest_some {limit : Nat} {t : Nat → Option Open} {n : Nat} (h : n < limit) (hn : t n = none) : ∃ fd, lowest limit t = some fd ∧ fd < limit ∧ t fd = none := by
  unfold lowest
  cases hf : (List.range limit).find? fun n => (t n).isNone with
  | none =>
    rw [List.find?_eq_none] at hf
    have := hf n (List.mem_range.mpr h)
    simp [hn] at this
  | some fd =>
    refine ⟨fd, rfl, ?_, ?_⟩
    · exact List.mem_range.mp (List.mem_of_find?_eq_some hf)
    · have := List.find?_some hf
      simpa using this

theorem redirected {limit : Nat} {t : Nat → Option Open} {n : Nat} (h : n < limit) (hn : t n = none) (file number : Nat) (hl : number < limit) (a : Access) :
    redirect (some file) number a (some number) limit t = some (put t number (some ⟨file, a⟩), some number) := by
  obtain ⟨fd, hf, -, hfn⟩ := lowest_some h hn
  simp only [redirect, hf, if_true]
  by_cases he : fd = number
  · subst he; simp
  · rw [if_neg he, if_pos hl]
    congr 2
    funext m
    unfold put
    by_cases h1 : m = fd
    · subst h1; simp [he, hfn]
    · by_cases h2 : m = number
      · simp [h2, Ne.symm he]
      · simp [h1, h2]

theorem closed (l : List Nat) (t : Nat → Option Open) : ∃ t', closing (some 0) (some 1) (some 2) l t = some t' ∧ ∀ n, t' n = if 3 ≤ n ∧ n ∈ l then none else t n := by
  induction l generalizing t with
  | nil => exact ⟨t, rfl, fun n => by simp⟩
  | cons fd rest ih =>
    by_cases h : fd = 0 ∨ fd = 1 ∨ fd = 2
    · obtain ⟨t', h1, h2⟩ := ih t
      refine ⟨t', by simp only [closing, if_pos h]; exact h1, fun n => ?_⟩
      rw [h2]
      by_cases h3 : 3 ≤ n
      · have : n ≠ fd := by omega
        simp [h3, this]
      · simp [h3]
    · obtain ⟨t', h1, h2⟩ := ih (put t fd none)
      refine ⟨t', by simp only [closing, if_neg h]; exact h1, fun n => ?_⟩
      rw [h2]
      unfold put
      by_cases h3 : n = fd
      · subst h3
        have : 3 ≤ n := by omega
        simp [this]
      · by_cases h4 : 3 ≤ n ∧ n ∈ rest
        · simp [h4]
        · simp only [h4, if_false, h3, List.mem_cons, false_or]

end Diminuto.Sanitize
