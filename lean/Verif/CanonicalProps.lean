import Verif.CanonicalLemmas

/-!
# Property C49: path canonicalisation
-/

namespace Diminuto.Canonical

/-- C49 for paths that are not right below the root: nothing is undefined, and the result is the canonical directory and the file.  `realpath` may
be any function that returns no empty paths. -/
theorem canonicalize_exact_partial (realpath : List Byte → Option (List Byte)) (hr : ∀ p q, realpath p = some q → q ≠ [])
    (path : List Byte) (size : Nat) (hlen : path.length < PATH) (h0 : path ≠ []) (hroot : ¬ Root path) :
    ∃ dir file, Splits path dir file ∧ canonicalize realpath path size = expected realpath dir file size := by
  obtain ⟨dir, file, hs⟩ := splits_exists path hroot
  obtain ⟨n, hn, hp⟩ := parts_eq hs h0 hlen
  refine ⟨dir, file, hs, ?_⟩
  unfold canonicalize
  rw [hp]
  exact build_eq realpath size dir n hn file hr

/-- C49: the directory and the file are determined by the path. -/
theorem canonicalize_splits_unique {path dir file dir' file' : List Byte} (h : Splits path dir file) (h' : Splits path dir' file')
    (h0 : path ≠ []) (hlen : path.length < PATH) : dir = dir' ∧ file = file' := by
  obtain ⟨n, -, h1⟩ := parts_eq h h0 hlen
  obtain ⟨m, -, h2⟩ := parts_eq h' h0 hlen
  rw [h1] at h2
  simp only [Option.some.injEq, Prod.mk.injEq] at h2
  exact ⟨h2.1, h2.2.2⟩

/-- C49: on success the buffer has an absolute path, it ends with the file, and fits into the buffer. -/
theorem canonicalize_absolute_partial (realpath : List Byte → Option (List Byte)) (hr : ∀ p q, realpath p = some q → ∃ r, q = 47#8 :: r)
    (path : List Byte) (size : Nat) (s : List Byte) (hroot : ¬ Root path) (hs : canonicalize realpath path size = .success s) :
    (∃ r, s = 47#8 :: r) ∧ s.length < size ∧ ∃ dir file d, Splits path dir file ∧ s = d ++ 47#8 :: file := by
  have hlen : path.length < PATH := by
    apply Classical.byContradiction
    intro h
    unfold canonicalize parts at hs
    simp only [] at hs
    rw [if_pos (by omega)] at hs
    simp at hs
  have h0 : path ≠ [] := by
    rintro rfl
    unfold canonicalize parts at hs
    simp only [] at hs
    rw [if_neg (by decide), if_pos (by decide)] at hs
    simp at hs
  obtain ⟨dir, file, h1, h2⟩ := canonicalize_exact_partial realpath (by rintro p q h rfl; obtain ⟨r, h⟩ := hr p _ h; simp at h) path size hlen h0 hroot
  rw [h2] at hs
  unfold expected at hs
  cases hp : realpath dir with
  | none => simp [hp] at hs
  | some pre =>
    rw [hp] at hs
    simp only [] at hs
    split at hs
    · simp at hs
    · rename_i hsz
      simp only [Outcome.success.injEq] at hs
      obtain ⟨r, hr⟩ := hr dir pre hp
      refine ⟨?_, ?_, dir, file, ?_⟩
      · rw [← hs, hr]
        split
        · exact ⟨r ++ file, rfl⟩
        · exact ⟨r ++ [47#8] ++ file, rfl⟩
      · rw [← hs]
        split
        · rw [List.length_append]; omega
        · rw [List.length_append, List.length_append]; simp only [List.length_cons, List.length_nil]; omega
      · split at hs
        · rename_i hl
          obtain ⟨d, hd⟩ := List.getLast?_eq_some_iff.1 hl
          exact ⟨d, h1, by rw [← hs, hd]; simp⟩
        · exact ⟨pre, h1, by rw [← hs]; simp⟩

/-- C49: empty paths and paths that are too long are refused. -/
theorem canonicalize_refused (realpath : List Byte → Option (List Byte)) (path : List Byte) (size : Nat) (h : path = [] ∨ PATH ≤ path.length) :
    canonicalize realpath path size = .failure := by
  unfold canonicalize parts
  rcases h with rfl | h
  · simp only []
    rw [if_neg (by decide), if_pos (by decide)]
  · simp only []
    rw [if_pos (by omega)]

/-- C49 is false for every path right below the root: the character before the empty string is read.  The buffer is large enough. -/
theorem canonicalize_root_counterexample (realpath : List Byte → Option (List Byte)) (file : List Byte) (hf : 47#8 ∉ file) (size : Nat)
    (hlen : (47#8 :: file).length < PATH) (hsize : 1 + file.length < size) : canonicalize realpath (47#8 :: file) size = .undefined := by
  have key : ∃ f, parts (47#8 :: file) = some ([], 0, f) ∧ f.length ≤ file.length := by
    have hm : min (47#8 :: file).length PATH = (47#8 :: file).length := Nat.min_eq_left (by omega)
    unfold parts
    simp only [hm]
    rw [if_neg (by omega), if_neg (by simp)]
    by_cases h1 : file = []
    · exact ⟨[], if_pos (by rw [h1]), by simp⟩
    rw [if_neg (by simpa using h1)]
    by_cases h2 : file = [46#8]
    · exact ⟨[], if_pos (by rw [h2]), by simp⟩
    rw [if_neg (by simpa using h2)]
    by_cases h3 : file = [46#8, 46#8]
    · exact ⟨[], if_pos (by rw [h3]), by simp⟩
    rw [if_neg (by simpa using h3)]
    have : strrchr 47#8 (47#8 :: file) = some 0 := strrchr_append _ file hf []
    rw [this]
    simp only [Nat.zero_add, List.drop_succ_cons, List.drop_zero]
    rw [if_neg (by rw [List.length_eq_zero_iff]; exact h1), if_neg h2, if_neg h3]
    exact ⟨file, if_pos (Nat.le_refl 1), Nat.le_refl _⟩
  obtain ⟨f, h1, h2⟩ := key
  unfold canonicalize
  rw [h1]
  simp only [build, if_true, List.length_nil]
  rw [if_neg (by omega)]
  have : put size [] = some [] := if_pos (by simp only [List.length_nil]; omega)
  rw [this]

/-- The result need not be canonical: for `".."` it is the working directory followed by `"/.."`. -/
theorem canonicalize_dots_counterexample (realpath : List Byte → Option (List Byte)) (h : realpath [46#8] = some [47#8, 120#8]) :
    canonicalize realpath [46#8, 46#8] 100 = .success [47#8, 120#8, 47#8, 46#8, 46#8] := by
  unfold canonicalize
  rw [show parts [46#8, 46#8] = some ([46#8], 1, [46#8, 46#8]) by decide]
  simp only [build, h]
  decide

/-- `"a/b"` where `realpath` finds `"/x"` for the directory. -/
example : canonicalize (fun p => if p = [97#8, 47#8] then some [47#8, 120#8] else none) [97#8, 47#8, 98#8] 100 =
      .success [47#8, 120#8, 47#8, 98#8] ∧ ¬ Root [97#8, 47#8, 98#8] := by
  refine ⟨by decide, ?_⟩
  rintro ⟨f, -, h⟩
  simp at h

end Diminuto.Canonical
