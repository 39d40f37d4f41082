import Verif.CollapsetoolLemmas

/-!
# Property C173: collapsing in place does what collapsing elsewhere does, and the tool writes what its arguments mean
-/

namespace Diminuto.Collapsetool

open Escape

/-- C173: where `to` and `from` are the same, what is stored and returned is the same as where they are apart, and the bytes after it remain. -/
theorem inplace_same (mem : List Byte) (tsize : Nat) (hz : 0#8 ∈ mem) :
    ∃ out, collapse mem tsize = some out ∧ collapses mem tsize = some (out ++ mem.drop out.length, out.length) := by
  obtain ⟨out, h1, h2⟩ := inplace_collapse (mem.length + 1) mem 0 0 tsize (Nat.le_refl _) (by omega) (by simpa using hz)
  refine ⟨out, h1, ?_⟩
  unfold collapses
  rw [h2]
  unfold after
  simp

/-- C173: the string is replaced by what it means. -/
theorem inplace_denotes (s junk : List Byte) (hz : 0#8 ∉ s) :
    ∃ r, Denotes s r ∧ (∀ r', Denotes s r' → r' = r) ∧ r.length ≤ s.length ∧
      collapses (s ++ 0#8 :: junk) (s.length + 1) = some (r ++ 0#8 :: (s ++ 0#8 :: junk).drop (r.length + 1), r.length + 1) := by
  obtain ⟨r, h1, h2, h3⟩ := escape_collapse_exact s hz
  refine ⟨r, h1, h2, denotes_length h1, ?_⟩
  obtain ⟨out, g1, g2⟩ := inplace_same (s ++ 0#8 :: junk) (s.length + 1) (by simp)
  have e := h3 junk (s.length + 1) (by omega)
  rw [Nat.add_sub_cancel, List.take_of_length_le (denotes_length h1)] at e
  rw [e] at g1
  obtain rfl := Option.some.inj g1
  rw [g2]
  simp

theorem arguments_written (w : Nat → List Byte → Nat) : ∀ (args : List (List Byte)) (n : Nat), (∀ arg ∈ args, 0#8 ∉ arg) →
    ∃ outs, All args outs ∧ arguments w n args = some (written w n outs)
  | [], n, _ => ⟨[], .nil, rfl⟩
  | arg :: args, n, h => by
    have h0 := h arg (List.mem_cons_self ..)
    have hr := fun n => arguments_written w args n (fun a ha => h a (List.mem_cons_of_mem _ ha))
    unfold arguments
    obtain ⟨r, d1, -, d3, d4⟩ := inplace_denotes arg [] h0
    by_cases he : (arg ++ [0#8]).head? = some 0#8
    · rw [if_pos he]
      obtain ⟨outs, g1, g2⟩ := hr n
      refine ⟨outs, .skip ⟨r, d1, ?_⟩ g1, g2⟩
      cases arg with
      | nil =>
        have : r = [] := List.eq_nil_of_length_eq_zero (by simpa using d3)
        rw [this]; rfl
      | cons a as =>
        simp only [List.cons_append, List.head?_cons, Option.some.injEq] at he
        exact absurd (he ▸ List.mem_cons_self ..) h0
    rw [if_neg he, d4]
    simp only [Option.bind_some]
    by_cases hn : r = [] ∨ r.head? = some 0#8
    · rw [if_pos (by
        right
        rcases hn with rfl | hn
        · rfl
        · cases r with
          | nil => exact (nomatch hn)
          | cons b r => exact hn)]
      obtain ⟨outs, g1, g2⟩ := hr n
      refine ⟨outs, .skip ⟨r, d1, ?_⟩ g1, g2⟩
      rcases hn with rfl | hn
      · rfl
      · rw [if_pos hn]
    · have hr0 : r ≠ [] := fun h => hn (.inl h)
      have hr1 : r.head? ≠ some 0#8 := fun h => hn (.inr h)
      rw [if_neg (by
        rintro (h | h)
        · omega
        · cases r with
          | nil => exact hr0 rfl
          | cons b r => exact hr1 h)]
      rw [Nat.add_sub_cancel, List.take_append_of_le_length (Nat.le_refl _), List.take_length]
      have hw : Writes arg r := ⟨r, d1, by rw [if_neg hr1]⟩
      by_cases hs : w n r = r.length
      · rw [if_neg (by simpa using hs)]
        obtain ⟨outs, g1, g2⟩ := hr (n + 1)
        refine ⟨r :: outs, .cons hw hr0 g1, ?_⟩
        rw [g2, show written w n (r :: outs) = ((written w (n + 1) outs).1, r ++ (written w (n + 1) outs).2) from by rw [written, if_pos hs]]
        rfl
      · rw [if_pos hs]
        obtain ⟨outs, g1, -⟩ := hr (n + 1)
        refine ⟨r :: outs, .cons hw hr0 g1, ?_⟩
        unfold written
        rw [if_neg hs]

/-- C173: the tool writes what its arguments mean, one after the other, until something cannot be written, in which case the status is one; an argument that means nothing, or something that begins with a nul, is passed over. -/
theorem main_written (w : Nat → List Byte → Nat) (args : List (List Byte)) (h : ∀ arg ∈ args, 0#8 ∉ arg) : ∃ outs, All args outs ∧ main w args = some (written w 0 outs) :=
  arguments_written w args 0 h

/-- C173: if everything can be written, everything is written, and the status is zero. -/
theorem main_whole_partial (args : List (List Byte)) (h : ∀ arg ∈ args, 0#8 ∉ arg) : ∃ outs, All args outs ∧ main (fun _ d => d.length) args = some (0, outs.flatten) := by
  obtain ⟨outs, h1, h2⟩ := main_written (fun _ d => d.length) args h
  refine ⟨outs, h1, ?_⟩
  rw [h2]
  have : ∀ (outs : List (List Byte)) n, written (fun _ d => d.length) n outs = (0, outs.flatten) := by
    intro outs
    induction outs with
    | nil => intro n; rfl
    | cons o os ih => intro n; unfold written; rw [if_pos rfl, ih]; rfl
  rw [this]

/-- `a\x41` and `\n`. -/
example : main (fun _ d => d.length) [[0x61, 0x5c, 0x78, 0x34, 0x31], [], [0x5c, 0x6e]] = some (0, [0x61, 0x41, 0x0a]) := by decide +kernel

/-- A write of only one byte. -/
example : main (fun _ _ => 1) [[0x61], [0x61, 0x62], [0x61]] = some (1, [0x61, 0x61]) := by decide +kernel

/-- In place, with the bytes that remain after it. -/
example : collapses [0x5c, 0x31, 0x30, 0x31, 0x5c, 0x71, 0, 7] 7 = some ([0x41, 0x71, 0, 0x31, 0x5c, 0x71, 0, 7], 3) := by decide +kernel

/-- C173, false of a nul at the beginning: of `\0A` nothing is written, and the status is zero; of `A\0` both bytes are written. -/
theorem nul_counterexample : (∃ r, Denotes [0x5c, 0x30, 0x41] r ∧ r = [0#8, 0x41#8]) ∧ main (fun _ d => d.length) [[0x5c, 0x30, 0x41]] = some (0, []) ∧
    main (fun _ d => d.length) [[0x41, 0x5c, 0x30]] = some (0, [0x41, 0]) := by
  refine ⟨⟨_, .oct1 (v1 := 0) ?_ ?_ (.plain (by decide) (by decide) .nil), rfl⟩, by decide +kernel, by decide +kernel⟩
  · unfold OctDigit; decide
  · intro c hc
    cases hc
    rintro ⟨v, hv⟩
    unfold OctDigit at hv
    simp at hv
    omega

end Diminuto.Collapsetool
