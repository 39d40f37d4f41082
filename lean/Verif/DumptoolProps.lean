import Verif.DumptoolLemmas

/-!
# Property C172: the tool that dumps files shows all of them and copies them exactly
-/

namespace Diminuto.Dumptool

open Dump

theorem files_plain (fuel : Nat) (hf : 2 ^ 64 < fuel) (w : List Byte → Option (List Byte)) : ∀ (names : List (List Byte)) (stdin : List Byte) (good : List (List Byte)) (tail : List (Option (List Byte))),
    inputs w names stdin = good.map some ++ tail → (tail = [] ∨ tail.head? = some none) → (∀ d ∈ good, d.length + 16 ≤ 2 ^ 64) →
    files fuel (fun n => (w n).map plain) names (plain stdin) = some ⟨if tail = [] then 0 else 2, good.flatMap whole, good.flatten⟩
  | [], stdin, good, tail, h, _, _ => by
    unfold inputs at h
    obtain ⟨h1, rfl⟩ := List.append_eq_nil_iff.1 h.symm
    obtain rfl := List.map_eq_nil_iff.1 h1
    rfl
  | name :: names, stdin, good, tail, h, ht, hg => by
    unfold inputs at h
    unfold files
    by_cases hn : name = [45#8]
    · rw [if_pos hn] at h ⊢
      cases good with
      | nil =>
        simp only [List.map_nil, List.nil_append] at h
        rw [← h] at ht
        rcases ht with ht | ht
        · exact (nomatch ht)
        · simp at ht
      | cons d good =>
        simp only [List.map_cons, List.cons_append, List.cons.injEq, Option.some.injEq] at h
        obtain ⟨rfl, h⟩ := h
        rw [dumps_plain fuel hf stdin (hg _ (List.mem_cons_self ..))]
        have := files_plain fuel hf w names [] good tail h ht (fun d hd => hg d (List.mem_cons_of_mem _ hd))
        simp only [Option.bind_some]
        rw [show ([] : List Event) = plain [] from rfl, this]
        rfl
    · rw [if_neg hn] at h ⊢
      cases good with
      | nil =>
        simp only [List.map_nil, List.nil_append] at h
        rw [← h] at ht ⊢
        rcases ht with ht | ht
        · exact (nomatch ht)
        · simp only [List.head?_cons, Option.some.injEq] at ht
          rw [ht]
          rfl
      | cons d good =>
        simp only [List.map_cons, List.cons_append, List.cons.injEq] at h
        obtain ⟨h0, h⟩ := h
        simp only [h0, Option.map_some]
        rw [dumps_plain fuel hf d (hg _ (List.mem_cons_self ..))]
        have := files_plain fuel hf w names stdin good tail h ht (fun d hd => hg d (List.mem_cons_of_mem _ hd))
        simp only [Option.bind_some]
        rw [this]
        rfl

/-- C172, of streams without errors: every input that comes before the first one that cannot be opened is shown as if it had been dumped at once, from address zero, and, with `-t`, copied exactly; the status is zero, or two if there is one that cannot be opened. -/
theorem main_plain_partial (fuel : Nat) (hf : 2 ^ 64 < fuel) (w : List Byte → Option (List Byte)) (opts : List Opt) (names : List (List Byte)) (stdin : List Byte) (hm : .menu ∉ opts)
    (good : List (List Byte)) (tail : List (Option (List Byte))) (h : inputs w (if names = [] then [[45#8]] else names) stdin = good.map some ++ tail)
    (ht : tail = [] ∨ tail.head? = some none) (hg : ∀ d ∈ good, d.length + 16 ≤ 2 ^ 64) :
    main fuel (fun n => (w n).map plain) opts names (plain stdin) =
      some (if .tee ∈ opts then ⟨if tail = [] then 0 else 2, good.flatten, good.flatMap whole⟩ else ⟨if tail = [] then 0 else 2, good.flatMap whole, []⟩) := by
  have hfiles := files_plain fuel hf w _ stdin good tail h ht hg
  unfold main
  rw [if_neg hm]
  by_cases hn : names = []
  · subst hn
    rw [if_pos rfl] at h hfiles
    rw [if_neg (by simp)]
    cases good with
    | nil =>
      simp only [inputs, if_true, List.map_nil, List.nil_append] at h
      rw [← h] at ht
      rcases ht with ht | ht
      · exact (nomatch ht)
      · simp at ht
    | cons d good =>
      simp only [inputs, if_true, List.map_cons, List.cons_append, List.cons.injEq, Option.some.injEq] at h
      obtain ⟨rfl, h⟩ := h
      obtain ⟨h1, rfl⟩ := List.append_eq_nil_iff.1 h.symm
      obtain rfl := List.map_eq_nil_iff.1 h1
      rw [dumps_plain fuel hf stdin (hg _ (List.mem_cons_self ..))]
      simp
  · rw [if_neg hn] at hfiles
    rw [if_pos (List.length_pos_iff.2 hn), hfiles]
    rfl

/-- C172: the menu. -/
theorem main_menu (fuel : Nat) (w : List Byte → Option (List Event)) (opts : List Opt) (names : List (List Byte)) (stdin : List Event) (hm : .menu ∈ opts) : main fuel w opts names stdin = some ⟨1, [], []⟩ := by
  unfold main
  rw [if_pos hm]

/-- C172, of any stream: what is read is shown, in pieces of at most sixteen bytes with their addresses, and copied; reading goes on to the end, or to a call that returns nothing; and an error is noticed exactly if there was one. -/
theorem dumps_any (fuel : Nat) (hf : 2 ^ 64 < fuel) (s : List Event) (h : s.length + 16 ≤ 2 ^ 64) :
    ∃ ps used rest, dumps fuel s = some (pieces 0 ps, bytesOf used, rest, decide (.error ∈ used)) ∧ s = used ++ rest ∧ ps.flatten = bytesOf used ∧
      (∀ p ∈ ps, 0 < p.length ∧ p.length ≤ 16) ∧ (rest = [] ∨ used.getLast? = some .eof ∨ used.getLast? = some .error) := by
  obtain ⟨ps, used, rest, h1, h2, h3, h4, h5⟩ := pour_facts fuel hf (s.length + 1) s 0#64 (by omega) (by simpa using h)
  refine ⟨ps, used, rest, ?_, h2, h3.symm, h4, h5⟩
  unfold dumps
  rw [h1, h3]
  rfl

/-- C172, of any standard input, without names or with `-`: what is read is shown and copied, and the status is three if there was an error, and zero otherwise. -/
theorem main_stdin (fuel : Nat) (hf : 2 ^ 64 < fuel) (w : List Byte → Option (List Event)) (opts : List Opt) (names : List (List Byte)) (hn : names = [] ∨ names = [[45#8]]) (s : List Event) (h : s.length + 16 ≤ 2 ^ 64) (hm : .menu ∉ opts) :
    ∃ ps used rest, s = used ++ rest ∧ ps.flatten = bytesOf used ∧ (rest = [] ∨ used.getLast? = some .eof ∨ used.getLast? = some .error) ∧
      main fuel w opts names s = some (if .tee ∈ opts then ⟨if .error ∈ used then 3 else 0, bytesOf used, pieces 0 ps⟩ else ⟨if .error ∈ used then 3 else 0, pieces 0 ps, []⟩) := by
  obtain ⟨ps, used, rest, h1, h2, h3, -, h5⟩ := dumps_any fuel hf s h
  refine ⟨ps, used, rest, h2, h3, h5, ?_⟩
  unfold main
  rw [if_neg hm]
  rcases hn with rfl | rfl
  · rw [if_neg (by simp), h1]
    simp only [Option.bind_some, decide_eq_true_eq]
  · rw [if_pos (by simp)]
    unfold files
    rw [if_pos rfl, h1]
    simp only [Option.bind_some, decide_eq_true_eq]
    by_cases he : Event.error ∈ used
    · simp only [if_pos he, Option.bind_some]
    · simp only [if_neg he, files, Option.bind_some, List.append_nil]

/-- An error of the standard input. -/
example : (main 100 (fun _ => none) [.tee] [] [.byte 65, .error, .byte 66]).map (fun r => (r.status, r.stdout)) = some (3, [65, 66]) := by decide +kernel

theorem dumps_clean (fuel : Nat) (hf : 2 ^ 64 < fuel) (s : List Event) (h : s.length + 16 ≤ 2 ^ 64) (he : .eof ∉ s) (q : List Byte × List Byte × List Event × Bool) (hq : dumps fuel s = some q) (h0 : q.2.2.2 = false) :
    s = plain q.2.1 ∧ q.2.2.1 = [] := by
  obtain ⟨ps, used, rest, h1, h2, -, -, h5⟩ := dumps_any fuel hf s h
  rw [h1] at hq
  obtain rfl := Option.some.inj hq
  have hu : Event.error ∉ used := by simpa using h0
  have hr : rest = [] := by
    rcases h5 with h | h | h
    · exact h
    · exact absurd (h2 ▸ List.mem_append_left _ (List.mem_of_getLast? h)) he
    · exact absurd (List.mem_of_getLast? h) hu
  subst hr
  refine ⟨?_, rfl⟩
  rw [List.append_nil] at h2
  subst h2
  simp only []
  clear h1 h5 h h0
  induction s with
  | nil => rfl
  | cons e s ih =>
    have := ih (fun x => he (List.mem_cons_of_mem _ x)) (fun x => hu (List.mem_cons_of_mem _ x))
    cases e with
    | byte b =>
      conv => lhs; rw [this]
      rfl
    | eof => exact absurd (List.mem_cons_self ..) he
    | error => exact absurd (List.mem_cons_self ..) hu

/-- C172: no error is hidden.  If the status is zero, then every name is `-` or that of a file that could be opened, and the files had no errors; what was copied is what is in them, in order. -/
theorem files_zero (fuel : Nat) (hf : 2 ^ 64 < fuel) (w : List Byte → Option (List Event)) (hw : ∀ n s, w n = some s → s.length + 16 ≤ 2 ^ 64 ∧ .eof ∉ s) :
    ∀ (names : List (List Byte)) (stdin : List Event), stdin.length + 16 ≤ 2 ^ 64 → .eof ∉ stdin →
    ∃ r, files fuel w names stdin = some r ∧ (r.status = 0 ∨ r.status = 2 ∨ r.status = 3) ∧
      (r.status = 0 → ∃ datas : List (List Byte), inputs (fun n => (w n).map bytesOf) names (bytesOf stdin) = datas.map some ∧ r.copied = datas.flatten ∧
        ∀ n ∈ names, n ≠ [45#8] → ∃ d, w n = some (plain d))
  | [], stdin, _, _ => ⟨_, rfl, .inl rfl, fun _ => ⟨[], rfl, rfl, by simp⟩⟩
  | name :: names, stdin, hs, he => by
    have bp : ∀ d, bytesOf (plain d) = d := by
      intro d
      unfold bytesOf plain
      rw [List.filterMap_map]
      exact List.filterMap_some
    unfold files
    by_cases hn : name = [45#8]
    · rw [if_pos hn]
      obtain ⟨ps, used, rest, h1, h2, h3, h4, h5⟩ := dumps_any fuel hf stdin hs
      rw [h1]
      simp only [Option.bind_some]
      by_cases hu : Event.error ∈ used
      · exact ⟨_, by rw [if_pos (by simpa using hu)], .inr (.inr rfl), fun h => absurd h (by simp)⟩
      · rw [if_neg (by simpa using hu)]
        obtain ⟨e1, e2⟩ := dumps_clean fuel hf stdin hs he _ h1 (by simpa using hu)
        obtain rfl : rest = [] := e2
        obtain ⟨r, g1, g2, g3⟩ := files_zero fuel hf w hw names [] (by simp) (by simp)
        rw [g1]
        refine ⟨_, rfl, g2, ?_⟩
        intro h0
        obtain ⟨datas, k1, k2, k3⟩ := g3 h0
        refine ⟨bytesOf used :: datas, ?_, ?_, ?_⟩
        · unfold inputs
          rw [if_pos hn]
          rw [show bytesOf ([] : List Event) = [] from rfl] at k1
          rw [k1, e1, bp]
          rfl
        · simp only [k2, List.flatten_cons]
        · intro n hmem hne
          rcases List.mem_cons.1 hmem with rfl | hmem
          · exact absurd hn hne
          · exact k3 n hmem hne
    · rw [if_neg hn]
      cases hwn : w name with
      | none => exact ⟨_, rfl, .inr (.inl rfl), fun h => absurd h (by simp)⟩
      | some s =>
        obtain ⟨hs', he'⟩ := hw name s hwn
        obtain ⟨ps, used, rest, h1, h2, h3, h4, h5⟩ := dumps_any fuel hf s hs'
        simp only []
        rw [h1]
        simp only [Option.bind_some]
        by_cases hu : Event.error ∈ used
        · exact ⟨_, by rw [if_pos (by simpa using hu)], .inr (.inr rfl), fun h => absurd h (by simp)⟩
        · rw [if_neg (by simpa using hu)]
          obtain ⟨e1, e2⟩ := dumps_clean fuel hf s hs' he' _ h1 (by simpa using hu)
          obtain ⟨r, g1, g2, g3⟩ := files_zero fuel hf w hw names stdin hs he
          rw [g1]
          refine ⟨_, rfl, g2, ?_⟩
          intro h0
          obtain ⟨datas, k1, k2, k3⟩ := g3 h0
          refine ⟨bytesOf used :: datas, ?_, ?_, ?_⟩
          · unfold inputs
            rw [if_neg hn, k1, hwn, e1, Option.map_some, bp]
            rfl
          · simp only [k2, List.flatten_cons]
          · intro n hmem hne
            rcases List.mem_cons.1 hmem with rfl | hmem
            · exact ⟨_, by rw [hwn, e1]⟩
            · exact k3 n hmem hne

theorem hex_length (u : Bool) : ∀ (k n : Nat), (hex u k n).length = k
  | 0, _ => rfl
  | k + 1, n => by unfold hex; rw [List.length_append, hex_length u k]; rfl

/-- C172, false of large files: lines that are 2^32 bytes apart show the same address, so that a line of a file of more than four gigabytes does not say where its bytes are. -/
theorem address_counterexample (data : List Byte) (a : Nat) : (showLine lineFormat 0 data (a + 2 ^ 32)).take 16 = (showLine lineFormat 0 data a).take 16 := by
  have h : ∀ a, (showLine lineFormat 0 data a).take 16 = hex false 16 (a % 2 ^ 32) := by
    intro a
    unfold showLine
    simp only [List.append_assoc]
    rw [show lineFormat.indent = 0 from rfl, show lineFormat.upper = false from rfl, List.replicate_zero, List.nil_append]
    rw [List.take_append_of_le_length (by rw [hex_length]; omega), List.take_of_length_le (by rw [hex_length]; omega)]
  rw [h, h, Nat.add_mod_right]

/-- Seventeen bytes. -/
def sample : List Byte := [104, 101, 108, 108, 111, 10, 0, 1, 2, 3, 4, 5, 6, 7, 8, 9, 65]

/-- A file of seventeen bytes and the standard input, with a copy. -/
example : main 100 (fun _ => some (plain sample)) [.tee] [[102], [45]] (plain [66]) =
    some ⟨0, sample ++ [66], whole sample ++ whole [66]⟩ := by decide +kernel

/-- An error after the third byte: reading goes on in the middle of a line, and the status is three. -/
example : (dumps 100 [.byte 65, .byte 66, .byte 67, .error, .byte 68]).map (fun q => (q.1 == shown 0 [65, 66, 67] ++ shown 3 [68], q.2.1, q.2.2.2)) = some (true, [65, 66, 67, 68], true) := by decide +kernel

/-- The hypotheses of `main_plain_partial` are met by two names of which the second does not exist. -/
example : inputs (fun n => if n = [102] then some sample else none) [[102], [103], [102]] [] = [sample].map some ++ [none, some sample] := by decide +kernel

end Diminuto.Dumptool
