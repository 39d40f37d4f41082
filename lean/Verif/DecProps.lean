import Verif.DecLemmas

/-!
# Properties of the tool that converts numbers
-/

namespace Diminuto.Dec

open Diminuto.Number (Reads White Denotes)

/-- C131.  Each command by its name. -/
theorem dec_command (c : Command) (path : List Byte) (h : path = [] ∨ path.getLast? = some 47#8) : command (path ++ ascii (called c)) = c := by
  have key : ∀ l : List Byte, (∀ b ∈ l, b ≠ 47#8) → name (path ++ l) = l := by
    intro l hl
    unfold name
    rw [List.reverse_append]
    have e : (l.reverse ++ path.reverse).takeWhile (· ≠ 47#8) = l.reverse := by
      have : ∀ m : List Byte, (∀ b ∈ m, b ≠ 47#8) → (m ++ path.reverse).takeWhile (· ≠ 47#8) = m := by
        intro m
        induction m with
        | nil =>
          intro _
          rcases h with rfl | h
          · rfl
          · rw [← List.head?_reverse] at h
            cases hp : path.reverse with
            | nil => rfl
            | cons x t => rw [hp] at h; cases h; rfl
        | cons b m ih => intro hb; rw [List.cons_append, List.takeWhile_cons, if_pos (by simpa using hb b (List.mem_cons_self ..)), ih fun x hx => hb x (List.mem_cons_of_mem _ hx)]
      exact this _ fun b hb => hl b (List.mem_reverse.mp hb)
    rw [e, List.reverse_reverse]
  unfold command
  rw [key _ (by cases c <;> decide)]
  cases c <;> decide

example : command (ascii "/usr/bin/hex") = .hex := by decide

/-- C131.  For arguments that are numbers, each of them is printed in a line, as a numeral that means what the command says: in decimal, in octal after a zero, or in hexadecimal after a zero and an x. -/
theorem dec_prints_partial (little : Bool) (argv0 : List Byte) (args : List (List Byte)) (input : List Byte) (values : List Nat) (ha : args ≠ []) (hd : args ≠ [ascii "-"]) (hl : args.length = values.length)
    (h : ∀ e ∈ args.zip values, IsNumber e.1 e.2) :
    ∃ ts : List (List Byte), main little argv0 args input = .exit 0 (ts.map (· ++ [10#8])).flatten ∧ ts.length = values.length ∧
      ∀ e ∈ ts.zip values, Reads e.1 false (meaning little (command argv0) e.2) [] ∧
        (command argv0 = .oct → ∃ u, e.1 = 48#8 :: u ∧ Denotes 8 u e.2) ∧ (command argv0 = .hex → ∃ u, e.1 = 48#8 :: 120#8 :: u ∧ Denotes 16 u e.2) ∧
        (command argv0 ≠ .oct → command argv0 ≠ .hex → Denotes 10 e.1 (meaning little (command argv0) e.2)) := by
  rw [main_args little argv0 args input ha hd]
  generalize command argv0 = c
  have hread : ∀ s n, IsNumber s n → (Number.unsigned s).1 = n ∧ accepted (Number.unsigned s).2.1 = some true := by
    intro s n ⟨hn, r, hr, hw⟩
    obtain ⟨h1, -, -, h4, -⟩ := Number.number_unsigned_reads hr
    refine ⟨h1 hn rfl, ?_⟩
    rw [h4]
    rcases hw with rfl | ⟨b, t, rfl, hb⟩
    · rfl
    · unfold accepted
      have := (Number.white_iff b).mpr hb
      simp only []
      rw [if_neg, this]
      unfold White at hb
      rw [BitVec.le_def]
      intro hc
      have : (128#8).toNat = 128 := rfl
      omega
  have key : ∀ (args : List (List Byte)) (values : List Nat), args.length = values.length → (∀ e ∈ args.zip values, IsNumber e.1 e.2) → ∀ out, ∃ ts : List (List Byte),
      loop little c args out = .exit 0 (out ++ (ts.map (· ++ [10#8])).flatten) ∧ ts.length = values.length ∧
      ∀ e ∈ ts.zip values, Reads e.1 false (meaning little c e.2) [] ∧ (c = .oct → ∃ u, e.1 = 48#8 :: u ∧ Denotes 8 u e.2) ∧ (c = .hex → ∃ u, e.1 = 48#8 :: 120#8 :: u ∧ Denotes 16 u e.2) ∧
        (c ≠ .oct → c ≠ .hex → Denotes 10 e.1 (meaning little c e.2)) := by
    intro args
    induction args with
    | nil =>
      intro values hl _ out
      cases values with
      | nil => exact ⟨[], by simp [loop], rfl, by simp⟩
      | cons _ _ => cases hl
    | cons s args ih =>
      intro values hl h out
      cases values with
      | nil => cases hl
      | cons n values =>
        have hs := h (s, n) (List.mem_cons_self ..)
        obtain ⟨h1, h2⟩ := hread s n hs
        rw [loop, h2]
        simp only []
        rw [h1]
        obtain ⟨t, base, l1, l2, -, -, l5, l6, l7⟩ := line_spec little c (BitVec.ofNat 64 n)
        have hn : (BitVec.ofNat 64 n).toNat = n := by rw [BitVec.toNat_ofNat]; exact Nat.mod_eq_of_lt hs.1
        rw [hn] at l2 l5 l6 l7
        obtain ⟨ts, k1, k2, k3⟩ := ih values (by simpa using hl) (fun e he => h e (List.mem_cons_of_mem _ he)) (out ++ (t ++ [10#8]))
        rw [l1, k1]
        refine ⟨t :: ts, by simp, by simp [k2], fun e he => ?_⟩
        rcases List.mem_cons.mp he with rfl | he
        · exact ⟨⟨[], [], t, base, by simp, by simp, .none, l2, (fun b t v e => by cases e), fun _ x y t v e => by cases e⟩, l5, l6, l7⟩
        · exact k3 e he
  obtain ⟨ts, h1, h2⟩ := key args values hl h []
  exact ⟨ts, h1, h2⟩

example : IsNumber (ascii "0x1f") 31 ∧ main true (ascii "dec") [ascii "0x1f", ascii "010"] [] = .exit 0 (ascii "31\n8\n") ∧ main true (ascii "hex") [ascii "31"] [] = .exit 0 (ascii "0x1f\n") ∧
    main true (ascii "htons") [ascii "80"] [] = .exit 0 (ascii "20480\n") := by
  refine ⟨⟨by decide, [], (Number.scan_iff _ _ _ _).1 (by decide), .inl rfl⟩, by decide, by decide, by decide⟩

/-- C131.  What `dec`, `oct` or `hex` print can be given to any of the commands, which does with it what it does with the arguments: if the first succeeds then so does the second, and prints the same. -/
theorem dec_pipe (little : Bool) (argv0 argv1 : List Byte) (h : command argv0 = .dec ∨ command argv0 = .oct ∨ command argv0 = .hex) (args : List (List Byte)) (input input' out : List Byte) (ha : args ≠ []) (hd : args ≠ [ascii "-"])
    (h0 : main little argv0 args input = .exit 0 out) : main little argv1 [] out = main little argv1 args input' := by
  rw [main_args little argv0 args input ha hd] at h0
  rw [main_args little argv1 args input' ha hd, main_file]
  obtain ⟨h1, h2⟩ := loop_zero _ _ _ _ _ h0
  rw [List.nil_append] at h1
  -- the texts of the lines
  have key : ∀ l : List (List Byte), ∃ ts : List (List Byte), (l.map fun s => line little (command argv0) (BitVec.ofNat 64 (Number.unsigned s).1)).flatten = (ts.map (· ++ [10#8])).flatten ∧ ts.length = l.length ∧
      (∀ t ∈ ts, t.length ≤ 62 ∧ ∀ b ∈ t, 48 ≤ b.toNat) ∧ (∀ t ∈ ts.map (· ++ [10#8]), accepted (Number.unsigned t).2.1 = some true) ∧
      (ts.map (· ++ [10#8])).map (fun s => line little (command argv1) (BitVec.ofNat 64 (Number.unsigned s).1)) = l.map (fun s => line little (command argv1) (BitVec.ofNat 64 (Number.unsigned s).1)) := by
    intro l
    induction l with
    | nil => exact ⟨[], rfl, rfl, by simp, by simp, rfl⟩
    | cons s l ih =>
      obtain ⟨ts, k1, k2, k3, k4, k5⟩ := ih
      obtain ⟨t, base, l1, l2, l3, l4, -⟩ := line_spec little (command argv0) (BitVec.ofNat 64 (Number.unsigned s).1)
      have hn : (BitVec.ofNat 64 (Number.unsigned s).1).toNat = (Number.unsigned s).1 := by rw [BitVec.toNat_ofNat]; exact Nat.mod_eq_of_lt (unsigned_lt s)
      have hm : meaning little (command argv0) (Number.unsigned s).1 = (Number.unsigned s).1 := by
        rcases h with h | h | h <;> rw [h] <;> rfl
      rw [hn, hm] at l2
      have hr : Reads (t ++ [10#8]) false (Number.unsigned s).1 [10#8] := ⟨[], [], t, base, by simp, by simp, .none, l2, ends_newline, apart_newline t⟩
      obtain ⟨r1, -, -, r4, -⟩ := Number.number_unsigned_reads hr
      refine ⟨t :: ts, by rw [List.map_cons, List.flatten_cons, k1, l1]; simp, by simp [k2], ?_, ?_, ?_⟩
      · intro x hx
        rcases List.mem_cons.mp hx with rfl | hx
        · exact ⟨l3, l4⟩
        · exact k3 x hx
      · intro x hx
        rw [List.map_cons] at hx
        rcases List.mem_cons.mp hx with rfl | hx
        · rw [r4]; rfl
        · exact k4 x hx
      · rw [List.map_cons, List.map_cons, List.map_cons, k5, r1 (unsigned_lt s) rfl]
  obtain ⟨ts, k1, k2, k3, k4, k5⟩ := key args
  rw [h1, k1, strings_lines ts k3 _ (Nat.le_refl _)]
  rw [if_neg (by
    intro hn
    have := congrArg List.length hn
    rw [List.length_map, k2, List.length_nil] at this
    exact ha (List.length_eq_zero_iff.mp this))]
  rw [loop_accepts _ _ _ _ k4, loop_accepts _ _ _ _ h2, k5]

/-- C131.  The commands that change the order of the bytes are their own inverses, on numbers of their size. -/
theorem dec_swap (little : Bool) (n : Nat) : (n < 2 ^ 16 → meaning little .ntohs (meaning little .htons n) = n) ∧ (n < 2 ^ 32 → meaning little .ntohl (meaning little .htonl n) = n) := by
  cases little
  · unfold meaning
    simp
  · exact ⟨reversed16_twice n, reversed32_twice n⟩

/-- C131.  A status of zero is for arguments of which each begins with a number, with or without a sign, and goes on with nothing or white space; or is empty, or begins with white space and no number. -/
theorem dec_status (little : Bool) (argv0 : List Byte) (args : List (List Byte)) (input out : List Byte) (ha : args ≠ []) (hd : args ≠ [ascii "-"]) (h0 : main little argv0 args input = .exit 0 out) :
    ∀ s ∈ args, (∃ g n r, Reads s g n r ∧ (r = [] ∨ ∃ b t, r = b :: t ∧ White b)) ∨ ((∀ g n r, ¬ Reads s g n r) ∧ (s = [] ∨ ∃ b t, s = b :: t ∧ White b)) := by
  rw [main_args little argv0 args input ha hd] at h0
  obtain ⟨-, h2⟩ := loop_zero _ _ _ _ _ h0
  have hacc : ∀ r, accepted r = some true → r = [] ∨ ∃ b t, r = b :: t ∧ White b := by
    intro r hr
    cases r with
    | nil => exact .inl rfl
    | cons b t =>
      unfold accepted at hr
      simp only [] at hr
      split at hr
      · cases hr
      · exact .inr ⟨b, t, rfl, (Number.white_iff b).mp (Option.some.inj hr)⟩
  intro s hs
  have hr := h2 s hs
  by_cases h : ∃ g n r, Reads s g n r
  · obtain ⟨g, n, r, h⟩ := h
    rw [(Number.number_unsigned_reads h).2.2.2.1] at hr
    exact .inl ⟨g, n, r, h, hacc r hr⟩
  · have hn : ∀ g n r, ¬ Reads s g n r := fun g n r hx => h ⟨g, n, r, hx⟩
    rw [(Number.number_none hn).1] at hr
    exact .inr ⟨hn, hacc s hr⟩

/-- C131.  A dash alone stands for the standard input, as does having no argument. -/
theorem dec_dash (little : Bool) (argv0 input : List Byte) : main little argv0 [ascii "-"] input = main little argv0 [] input := by
  unfold main
  simp

/-- C131.  An argument with a number that goes on with something else than white space ends the program with a status of three after the lines for the arguments before it. -/
theorem dec_refused (little : Bool) (argv0 : List Byte) (before after : List (List Byte)) (s t input out : List Byte) (g : Bool) (n : Nat) (b : Byte) (hb : before ≠ []) (hd : before ≠ [ascii "-"])
    (h0 : main little argv0 before input = .exit 0 out) (hr : Reads s g n (b :: t)) (hw : ¬ White b) (hc : b.toNat < 128 ∨ b = 255#8) :
    main little argv0 (before ++ s :: after) input = .exit 3 out := by
  rw [main_args little argv0 before input hb hd] at h0
  have happ : ∀ (l r : List (List Byte)) (start : List Byte), loop little (command argv0) l start = .exit 0 out → loop little (command argv0) (l ++ r) start = loop little (command argv0) r out := by
    intro l r
    induction l with
    | nil => intro start h; rw [loop] at h; cases h; rfl
    | cons x l ih =>
      intro start h
      rw [List.cons_append]
      rw [loop] at h ⊢
      split
      · rename_i e; rw [e] at h; cases h
      · rename_i e; rw [e] at h; cases h
      · rename_i e; rw [e] at h; exact ih _ h
  have hne : before ++ s :: after ≠ [ascii "-"] := by
    intro h
    have := congrArg List.length h
    simp at this
    exact hb (List.length_eq_zero_iff.mp (by omega))
  rw [main_args little argv0 _ input (by simp) hne, happ _ _ _ h0, loop, (Number.number_unsigned_reads hr).2.2.2.1]
  have hacc : accepted (b :: t) = some false := by
    unfold accepted
    simp only []
    rw [if_neg]
    · cases hx : Number.isSpace b
      · rfl
      · exact absurd ((Number.white_iff b).mp hx) hw
    · rintro ⟨h1, h2⟩
      rcases hc with h | h
      · have := BitVec.le_def.mp h1
        have e : (128#8).toNat = 128 := rfl
        omega
      · exact h2 h
  rw [hacc]

example : main true (ascii "dec") [ascii "1", ascii "2x", ascii "3"] [] = .exit 3 (ascii "1\n") := by decide

/-- C131.  The property asks that a status of zero means that the number which is printed is the one that was given.  An empty argument is zero, one that is too large is the largest there is, a negative one is what is
left modulo 2 to the power of 64, and what does not fit the bytes that are exchanged is lost. -/
theorem dec_status_counterexample : main true (ascii "dec") [[]] [] = .exit 0 (ascii "0\n") ∧ main true (ascii "dec") [ascii "99999999999999999999"] [] = .exit 0 (ascii "18446744073709551615\n") ∧
    main true (ascii "dec") [ascii "-1"] [] = .exit 0 (ascii "18446744073709551615\n") ∧ main true (ascii "htons") [ascii "65537"] [] = .exit 0 (ascii "256\n") := by
  refine ⟨by decide, by decide, by decide, by decide⟩

/-- C131.  A line of more than 63 characters is several numbers: 64 spaces and a digit are two lines of the output, of which the first is zero. -/
theorem dec_long_counterexample : main true (ascii "dec") [] (List.replicate 64 32#8 ++ ascii "7\n") = .exit 0 (ascii "0\n7\n") := by decide +kernel

end Diminuto.Dec
