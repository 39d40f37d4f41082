import Verif.MemorysizeLemmas

/-!
# Property C178: the sizes of pages and of lines of the cache are those of the first source that has one
-/

namespace Diminuto.Memorysize

/-- C178: the size of a page is that of the first source that has one, and the method says which. -/
theorem pagesize_first (w : Pages) : First [(w.explicit, 'E'), (some w.sysconf, 'C'), (some w.getpagesize, 'G'), (some 4096, 'I')] (pagesize w).1 (pagesize w).2 := by
  have hr : ∀ x : Option Int, (∀ n, x = some n → n ≤ 0) → First [(x, 'E'), (some w.sysconf, 'C'), (some w.getpagesize, 'G'), (some 4096, 'I')] (pagesize.rest w).1 (pagesize.rest w).2 := by
    intro x hx
    unfold pagesize.rest
    by_cases h1 : w.sysconf > 0
    · rw [if_pos h1]
      exact ⟨[(x, 'E')], 'C', _, rfl, h1, rfl, by simpa using hx⟩
    rw [if_neg h1]
    by_cases h2 : w.getpagesize > 0
    · rw [if_pos h2]
      refine ⟨[(x, 'E'), (some w.sysconf, 'C')], 'G', _, rfl, h2, rfl, ?_⟩
      simp only [List.mem_cons, List.not_mem_nil, or_false, forall_eq_or_imp, forall_eq, Option.some.injEq]
      exact ⟨hx, by rintro n rfl; omega⟩
    rw [if_neg h2]
    refine ⟨[(x, 'E'), (some w.sysconf, 'C'), (some w.getpagesize, 'G')], 'I', _, rfl, by decide, rfl, ?_⟩
    simp only [List.mem_cons, List.not_mem_nil, or_false, forall_eq_or_imp, forall_eq, Option.some.injEq]
    exact ⟨hx, by rintro n rfl; omega, by rintro n rfl; omega⟩
  unfold pagesize
  cases he : w.explicit with
  | none => exact hr none (fun _ h => (nomatch h))
  | some n =>
    simp only []
    by_cases h : n > 0
    · rw [if_pos h]
      exact ⟨[], 'E', _, rfl, h, rfl, by simp⟩
    · rw [if_neg h]
      exact hr (some n) (by rintro m h'; cases h'; omega)

/-- `sysconf(3)` fails, and `getpagesize(2)` does not. -/
example : pagesize ⟨none, -1, 16384⟩ = (16384, 'G'.toNat) ∧ pagesize ⟨some 0, 0, 0⟩ = (4096, 'I'.toNat) := by decide

/-- C178: the size of a line is greater than zero, whatever the system answers. -/
theorem linesize_positive (w : Lines) : 0 < (linesize w).linesize := by
  have hs : 0 < (search w).linesize := by
    unfold search
    by_cases h : w.sysconf > 0
    · rw [if_pos h]; exact h
    · rw [if_neg h]
      simp only []
      split
      · assumption
      · show (0 : Int) < 64
        decide
  unfold linesize
  cases w.explicit with
  | none => exact hs
  | some n =>
    simp only []
    split
    · assumption
    · exact hs

/-- C178, in part: if the two files can be read and closed, when they are there, the size of a line is that of the first source that has one, and the method says which, but for the second file; no stream is left open.  What is missing is false: `method_counterexample`, `leak_counterexample` and `unknown_counterexample`. -/
theorem linesize_first_partial (explicit : Option Int) (sysconf : Int) (f g : File) (hf : Clean f) (hg : Clean g) :
    First [(explicit, 'e'), (some sysconf, 'c'), (f.number, 'n'), (g.number, 'o'), (some 64, 'i')] (linesize ⟨explicit, sysconf, [f, g]⟩).linesize (linesize ⟨explicit, sysconf, [f, g]⟩).method ∧
      (linesize ⟨explicit, sysconf, [f, g]⟩).leaked = 0 := by
  have hr : ∀ x : Option Int, (∀ n, x = some n → n ≤ 0) → First [(x, 'e'), (some sysconf, 'c'), (f.number, 'n'), (g.number, 'o'), (some 64, 'i')] (search ⟨explicit, sysconf, [f, g]⟩).linesize (search ⟨explicit, sysconf, [f, g]⟩).method ∧ (search ⟨explicit, sysconf, [f, g]⟩).leaked = 0 := by
    intro x hx
    unfold search
    simp only []
    by_cases h1 : sysconf > 0
    · rw [if_pos h1]
      exact ⟨⟨[(x, 'e')], 'c', _, rfl, h1, rfl, by simpa using hx⟩, rfl⟩
    rw [if_neg h1]
    have b2 : ∀ y ∈ [(x, 'e'), (some sysconf, 'c')], ∀ n, y.1 = some n → n ≤ 0 := by
      simp only [List.mem_cons, List.not_mem_nil, or_false, forall_eq_or_imp, forall_eq, Option.some.injEq]
      exact ⟨hx, by rintro n rfl; omega⟩
    have found : ∀ n, f.number = some n → 0 < n → First [(x, 'e'), (some sysconf, 'c'), (f.number, 'n'), (g.number, 'o'), (some 64, 'i')] n 'n'.toNat := by
      intro n h h0
      exact ⟨[(x, 'e'), (some sysconf, 'c')], 'n', _, by rw [h]; rfl, h0, rfl, b2⟩
    have later : ∀ (l : List File) (s : Int), l = [g] → s ≤ 0 → (∀ n, f.number = some n → n ≤ 0) →
        First [(x, 'e'), (some sysconf, 'c'), (f.number, 'n'), (g.number, 'o'), (some 64, 'i')] (if (loop l 1 ⟨s, '?'.toNat, 0⟩).linesize > 0 then loop l 1 ⟨s, '?'.toNat, 0⟩ else ⟨64, 'i'.toNat, (loop l 1 ⟨s, '?'.toNat, 0⟩).leaked⟩).linesize
          (if (loop l 1 ⟨s, '?'.toNat, 0⟩).linesize > 0 then loop l 1 ⟨s, '?'.toNat, 0⟩ else ⟨64, 'i'.toNat, (loop l 1 ⟨s, '?'.toNat, 0⟩).leaked⟩).method ∧
          (if (loop l 1 ⟨s, '?'.toNat, 0⟩).linesize > 0 then loop l 1 ⟨s, '?'.toNat, 0⟩ else ⟨64, 'i'.toNat, (loop l 1 ⟨s, '?'.toNat, 0⟩).leaked⟩).leaked = 0 := by
      rintro l s rfl hs hfn
      have b3 : ∀ y ∈ [(x, 'e'), (some sysconf, 'c'), (f.number, 'n')], ∀ n, y.1 = some n → n ≤ 0 := by
        intro y hy
        rcases List.mem_append.1 (show y ∈ [(x, 'e'), (some sysconf, 'c')] ++ [(f.number, 'n')] from hy) with h | h
        · exact b2 y h
        · rw [List.mem_singleton.1 h]; exact hfn
      have last : (∀ n, g.number = some n → n ≤ 0) → First [(x, 'e'), (some sysconf, 'c'), (f.number, 'n'), (g.number, 'o'), (some 64, 'i')] 64 'i'.toNat := by
        intro hgn
        refine ⟨[(x, 'e'), (some sysconf, 'c'), (f.number, 'n'), (g.number, 'o')], 'i', [], rfl, by decide, rfl, ?_⟩
        intro y hy
        rcases List.mem_append.1 (show y ∈ [(x, 'e'), (some sysconf, 'c'), (f.number, 'n')] ++ [(g.number, 'o')] from hy) with h | h
        · exact b3 y h
        · rw [List.mem_singleton.1 h]; exact hgn
      cases g with
      | absent =>
        have hl : loop [.absent] 1 ⟨s, '?'.toNat, 0⟩ = ⟨s, '?'.toNat, 0⟩ := by simp only [loop]
        rw [hl, if_neg (show ¬s > 0 by omega)]
        exact ⟨last (fun _ h => (nomatch h)), rfl⟩
      | present n c =>
        obtain ⟨hn, rfl⟩ := hg
        cases n with
        | none => exact absurd rfl hn
        | some n =>
          simp only [loop]
          by_cases h0 : n > 0
          · simp only [if_pos h0]
            exact ⟨⟨[(x, 'e'), (some sysconf, 'c'), (f.number, 'n')], 'o', _, rfl, h0, rfl, b3⟩, trivial⟩
          · simp only [if_neg h0]
            exact ⟨last (by rintro m h; cases h; omega), trivial⟩
    cases f with
    | absent => exact later [g] sysconf rfl (by omega) (fun _ h => (nomatch h))
    | present n c =>
      obtain ⟨hn, rfl⟩ := hf
      cases n with
      | none => exact absurd rfl hn
      | some n =>
        by_cases h0 : n > 0
        · have hl : loop [.present (some n) true, g] 0 ⟨sysconf, '?'.toNat, 0⟩ = ⟨n, 'n'.toNat, 0⟩ := by simp only [loop, if_pos h0, Nat.add_zero]
          rw [hl, if_pos h0]
          exact ⟨found n rfl h0, rfl⟩
        · have hl : loop [.present (some n) true, g] 0 ⟨sysconf, '?'.toNat, 0⟩ = loop [g] 1 ⟨n, '?'.toNat, 0⟩ := by
            rw [loop, if_neg h0]
          rw [hl]
          exact later [g] n rfl (by omega) (by rintro m h; cases h; omega)
  unfold linesize
  simp only []
  cases explicit with
  | none => exact hr none (fun _ h => (nomatch h))
  | some n =>
    simp only []
    by_cases h : n > 0
    · rw [if_pos h]
      exact ⟨⟨[], 'e', _, rfl, h, rfl, by simp⟩, rfl⟩
    · rw [if_neg h]
      exact hr (some n) (by rintro m h'; cases h'; omega)

/-- C178: at most as many streams are left open as there are files that can be opened and have no number. -/
theorem linesize_leaks (w : Lines) : (linesize w).leaked ≤ w.files.countP (fun f => f.number.isNone && f != .absent) := by
  have hs : (search w).leaked ≤ w.files.countP (fun f => f.number.isNone && f != .absent) := by
    unfold search
    split
    · exact Nat.zero_le _
    · have := (loop_size w.files 0 ⟨w.sysconf, '?'.toNat, 0⟩).1
      simp only [Nat.zero_add] at this ⊢
      split <;> exact this
  unfold linesize
  cases w.explicit with
  | none => exact hs
  | some n =>
    simp only []
    split
    · exact Nat.zero_le _
    · exact hs

/-- There is only the first file. -/
example : linesize ⟨none, 0, [.present (some 128) true, .absent]⟩ = ⟨128, 'n'.toNat, 0⟩ ∧ linesize ⟨none, -1, [.present (some (-3)) true, .absent]⟩ = ⟨64, 'i'.toNat, 0⟩ ∧
    linesize ⟨some 32, 16, []⟩ = ⟨32, 'e'.toNat, 0⟩ := by decide

/-- C178, false of the second file: the method is `o`, which is none of the enumeration, instead of `l`. -/
theorem method_counterexample : linesize ⟨none, 0, [.absent, .present (some 32) true]⟩ = ⟨32, 'o'.toNat, 0⟩ ∧ 'o' ∉ ['i', 'e', 'c', 'n', 'l', '?'] := by decide

/-- C178, false of a file that has no number: its stream is not closed. -/
theorem leak_counterexample : linesize ⟨none, 0, [.present none true, .present none true]⟩ = ⟨64, 'i'.toNat, 2⟩ := by decide

/-- C178, false of a file that cannot be closed: its number is used, and the method is unknown. -/
theorem unknown_counterexample : linesize ⟨none, 0, [.present (some 32) false, .absent]⟩ = ⟨32, '?'.toNat, 0⟩ := by decide

end Diminuto.Memorysize
