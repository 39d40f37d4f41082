import Verif.ListingLemmas

/-! # Properties of the tool that lists a part of the file system -/

namespace Diminuto.Listing

open Walker

/-- Whatever the file system does, the tool ends; every argument is walked, also after one has failed, in the order in which they are given, and without arguments the current directory; the tool
returns the code of the first walk that failed, without the sign, and zero exactly if none has failed. -/
theorem listing_exit_partial {σ : Type} (sys : Sys σ) (hs : Named sys) (real : σ → Name → Option Name) (hr : ∀ s a n, real s a = some n → 0#8 ∉ n) (args : List Name) (s : σ) :
    ∃ r rs t, main sys real args s = some (r, t) ∧ 0 ≤ r ∧ r ≤ 9 ∧ -r = (rs.find? (· ≠ 0)).getD 0 ∧ (r = 0 ↔ ∀ q ∈ rs, q = 0) ∧
      ∀ ops, (args = [[45#8, 100#8]] ∨ args = [] → ops = [[46#8]]) → ((∃ a as, args = a :: as ∧ a ≠ [45#8, 100#8]) → ops = args) →
        ((∃ a as, args = [45#8, 100#8] :: a :: as) → args = [45#8, 100#8] :: ops) → Walked sys real ops (s, []) rs t := by
  have key : ∀ ops : List Name, ops ≠ [] → ∃ r rs t, loop sys real ops 0 (s, []) = some (r, t) ∧ Walked sys real ops (s, []) rs t ∧ r = (rs.find? (· ≠ 0)).getD 0 ∧ -9 ≤ r ∧ r ≤ 0 ∧
      (r = 0 ↔ ∀ q ∈ rs, q = 0) := by
    intro ops _
    obtain ⟨r, rs, t, h1, h2, h3, h4, h5⟩ := loop_walked sys hs real hr ops 0 (s, []) ⟨by decide, by decide⟩
    have h3 : r = (rs.find? (· ≠ 0)).getD 0 := by rw [h3]; simp
    refine ⟨r, rs, t, h1, h2, h3, h4, h5, ?_⟩
    rw [h3]
    cases hf : rs.find? (· ≠ 0) with
    | none =>
      have := List.find?_eq_none.1 hf
      simpa using this
    | some q =>
      have hq := List.find?_some hf
      have hm := List.mem_of_find?_eq_some hf
      simp only [Option.getD_some]
      constructor
      · intro e
        simp [e] at hq
      · intro g
        exact g q hm
  have sign : ∀ r : Int, -9 ≤ r → r ≤ 0 → (if r < 0 then -r else r) = -r := by
    intro r _ _
    split <;> omega
  by_cases he : operands args = []
  · obtain ⟨r, rs, t, h1, h2, h3, h4, h5, h6⟩ := key [[46#8]] (by simp)
    refine ⟨-r, rs, t, ?_, by omega, by omega, by rw [Int.neg_neg]; exact h3, by rw [← h6]; omega, fun ops g1 _ _ => ?_⟩
    · rw [main, if_pos he]
      rw [loop] at h1
      rcases hw : walk (printing sys) (real s [46#8]) (s, []) with _ | ⟨q, path, u⟩
      · rw [hw] at h1
        cases h1
      · rw [hw] at h1
        simp only [Option.bind_some, loop, if_pos] at h1
        cases h1
        simp only [Option.map_some]
        rw [sign r h4 h5]
    · rw [g1]
      · exact h2
      · cases args with
        | nil => exact .inr rfl
        | cons a as =>
          rw [operands] at he
          by_cases ha : a = [45#8, 100#8]
          · rw [if_pos ha] at he
            exact .inl (by rw [ha, he])
          · rw [if_neg ha] at he
            cases he
  · obtain ⟨r, rs, t, h1, h2, h3, h4, h5, h6⟩ := key (operands args) he
    refine ⟨-r, rs, t, ?_, by omega, by omega, by rw [Int.neg_neg]; exact h3, by rw [← h6]; omega, fun ops _ g2 g3 => ?_⟩
    · rw [main, if_neg he, h1]
      simp only [Option.map_some]
      rw [sign r h4 h5]
    · cases args with
      | nil => exact absurd rfl he
      | cons a as =>
        rw [operands] at he h2
        by_cases ha : a = [45#8, 100#8]
        · rw [if_pos ha] at he h2
          cases as with
          | nil => exact absurd rfl he
          | cons b bs =>
            have := g3 ⟨b, bs, by rw [ha]⟩
            rw [ha] at this
            cases this
            exact h2
        · rw [if_neg ha] at h2
          rw [g2 ⟨a, as, rfl, ha⟩]
          exact h2

/-- In a file system that does not change, and whose names contain no newline and begin with no space, the listing can be read back: exactly the objects at and below the root that can be seen are in
it, each once, with its path and whether it is a directory. -/
theorem listing_readable_partial {fs : Fs} {root : Name} (hs : Sound fs root) (hd : Distinct fs) (hroot : Plain root)
    (hslash : root = [47#8] → ∀ m, fs.mode root = .ok m → directory m = true) (hn : ∀ p names, fs.names p = .ok names → ∀ m ∈ names, Plain m) (arg : Name) (ha : arg ≠ [45#8, 100#8]) :
    ∃ out, main (still fs) (fun _ _ => some root) [arg] () = some (0, (), out) ∧
      (∀ q dir, (q, dir) ∈ paths (lines out) [] ↔ ∃ n d m, Below fs root q n d ∧ fs.mode q = .ok m ∧ directory m = dir) ∧
      ((paths (lines out) []).map Prod.fst).Nodup := by
  obtain ⟨vs, hw⟩ := w_exists hs _ root root 0 (Nat.le_refl _) .root
  obtain ⟨path, h⟩ := walk_listing hs.start.1 hs.start.2.1 (fun p l hl m hm => (hs.names p l hl m hm).1) hw []
  obtain ⟨h1, above, h2, -, -⟩ := paths_w hroot hs.start.1 hs.start.2.2 hslash (fun p l hl m hm => ⟨(hs.names p l hl m hm).2, hn p l hl m hm⟩) hw [] [] (Nat.le_refl _) (.inl ⟨rfl, rfl, rfl⟩)
  have hp : paths (lines (listing vs)) [] = vs.map fun v => (v.path, directory v.mode) := by
    rw [lines_listing vs h1]
    simpa [paths] using h2
  refine ⟨listing vs, ?_, ?_, ?_⟩
  · rw [main, operands, if_neg ha, if_neg (by simp), loop]
    rw [List.nil_append] at h
    simp only [h, Option.bind_some, loop, Option.map_some]
    rfl
  · intro q dir
    rw [hp]
    simp only [List.mem_map, Prod.mk.injEq]
    constructor
    · rintro ⟨v, hv, rfl, rfl⟩
      obtain ⟨g1, g2⟩ := w_sound hw .root v hv
      exact ⟨_, _, _, g1, g2, rfl⟩
    · rintro ⟨n, d, m, hb, hm, rfl⟩
      obtain ⟨us, hus, hsub⟩ := w_complete hw hb
      obtain ⟨us', rfl⟩ := w_head hus hm
      exact ⟨_, hsub _ List.mem_cons_self, rfl, rfl⟩
  · rw [hp, List.map_map]
    exact (w_nodup hs hd hw .root).1

/-- The file system of the example for the walk satisfies what is assumed. -/
example : Sound tree [47#8] ∧ Distinct tree ∧ Plain [47#8] ∧ (∀ m, tree.mode [47#8] = .ok m → directory m = true) ∧
    (∀ p names, tree.names p = .ok names → ∀ m ∈ names, Plain m) := by
  refine ⟨tree_sound.1, tree_sound.2, by simp [Plain], ?_, ?_⟩
  · intro m h
    simp only [tree] at h
    cases h
    decide
  · intro p names h m hm
    simp only [tree] at h
    split at h
    · cases h
      simp only [List.mem_cons, List.not_mem_nil, or_false] at hm
      rcases hm with rfl | rfl | rfl | rfl <;> simp [Plain]
    · split at h
      · cases h
        simp only [List.mem_cons, List.not_mem_nil, or_false] at hm
        rcases hm with rfl | rfl <;> simp [Plain]
      · cases h

/-- What a listing looks like, and what is read from it: a directory `/`, a file `a` and a directory `b` in it. -/
example : paths (lines [47#8, 10#8, 32#8, 97#8, 10#8, 32#8, 98#8, 47#8, 10#8]) [] = [([47#8], true), ([47#8, 97#8], false), ([47#8, 98#8], true)] := by decide

/-- A root with the given files. -/
def flat (l : List Name) : Fs where
  mode := fun p => if p = [47#8] then .ok 0x41FF#32 else .ok 0x81FF#32
  names := fun p => if p = [47#8] then .ok l else .error .notdir

/-- The listing of a directory with one file whose name contains a newline and a space is that of a directory with two files. -/
theorem listing_newline_counterexample (arg : Name) (ha : arg ≠ [45#8, 100#8]) :
    main (still (flat [[97#8, 10#8, 32#8, 98#8]])) (fun _ _ => some [47#8]) [arg] () = main (still (flat [[97#8], [98#8]])) (fun _ _ => some [47#8]) [arg] () ∧
    (main (still (flat [[97#8], [98#8]])) (fun _ _ => some [47#8]) [arg] ()).isSome := by
  have file : ∀ l n, n ≠ [] → n.length ≤ 10 → W (flat l) (.obj (under [47#8] n) n 1) [⟨n, 47#8 :: n, 1, 0x81FF#32⟩] := by
    intro l n hn hl
    refine .file (m := 0x81FF#32) ?_ (by decide) ?_ (by decide)
    · simp [under]
      omega
    · simp [flat, under, hn]
  have one : ∀ l vs, (∀ m ∈ l, (0#8 : Byte) ∉ m) → W (flat l) (.list [47#8] 1 l) vs → main (still (flat l)) (fun _ _ => some [47#8]) [arg] () = some (0, (), [47#8, 10#8] ++ listing vs) := by
    intro l vs h0 hw
    have hr : W (flat l) (.obj [47#8] [47#8] 0) (⟨[47#8], [47#8], 0, 0x41FF#32⟩ :: vs) := .dir (by decide) (by decide) rfl (by decide) rfl hw
    obtain ⟨path, h⟩ := walk_listing (by decide) (by decide) (fun p names hp m hm => by
      simp only [flat] at hp
      split at hp
      · cases hp
        exact h0 m hm
      · cases hp) hr []
    rw [main, operands, if_neg ha, if_neg (by simp), loop]
    simp only [h, Option.bind_some, loop, Option.map_some]
    rfl
  have h1 := one [[97#8, 10#8, 32#8, 98#8]] _ (by simp) (.cons (by simp [Proper]) (file _ _ (by simp) (by simp)) .nil)
  have h2 := one [[97#8], [98#8]] _ (by simp) (.cons (by simp [Proper]) (file _ _ (by simp) (by simp)) (.cons (by simp [Proper]) (file _ _ (by simp) (by simp)) .nil))
  rw [h1, h2]
  exact ⟨rfl, rfl⟩

end Diminuto.Listing
