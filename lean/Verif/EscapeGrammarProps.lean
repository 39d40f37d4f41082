import Verif.EscapeGrammarLemmas

/-!
# Property C60: what the collapse function makes of C escape sequences
-/

namespace Diminuto.Escape

/-! ## The property -/

/-- C60: collapse stores what the source means, as far as the buffer has room, and a terminator. -/
theorem escape_collapse_denotes {s r : List Byte} (h : Denotes s r) (junk : List Byte) (t : Nat)
    (ht : 0 < t) : collapse (s ++ 0#8 :: junk) t = some (r.take (t - 1) ++ [0#8]) := by
  change _ = some (stored r t)
  induction h generalizing t with
  | nil =>
    rw [List.nil_append, collapse.eq_def]
    split
    · simp only [finish, if_pos ht]
      simp [stored]
    · simp only [finish, if_pos ht]
      simp [stored]
  | dangling =>
    rw [collapse.eq_def]
    split
    · simp only [finish, if_pos ht]
      simp [stored]
    · rename_i h1
      simp only [List.cons_append, List.nil_append]
      rw [if_neg (by decide), if_pos (by trivial), if_pos (by trivial), collapse.eq_def, if_neg h1]
      simp only [finish, if_pos ht]
      simp [stored]
  | plain h0 h _ ih =>
    by_cases h1 : 1 < t
    · rw [List.cons_append, collapse_plain _ _ _ h1 h0 h, ih _ (by omega), stored_cons h1]
      rfl
    · exact collapse_full _ _ _ ht h1
  | continued h _ ih =>
    by_cases h1 : 1 < t
    · rw [List.cons_append, List.cons_append, collapse_continued _ _ _ h1 h, ih _ ht]
    · exact collapse_full _ _ _ ht h1
  | letter h _ ih =>
    by_cases h1 : 1 < t
    · obtain ⟨n0, n1, n2, n3, n4, n5⟩ := named_facts _ _ h
      rw [List.cons_append, List.cons_append, collapse_letter _ _ _ h1 n0 n1 n2 n3 n4, n5,
        ih _ (by omega), stored_cons h1]
      rfl
    · exact collapse_full _ _ _ ht h1
  | @itself c _ _ n0 n1 n2 n3 h4 h5 _ ih =>
    by_cases h1 : 1 < t
    · have n5 : letter c = c := (letter_itself c).resolve_right (h5 _)
      rw [List.cons_append, List.cons_append, collapse_letter _ _ _ h1 n0 n1 n2 n3
        (octalValue_none fun ⟨v, hv⟩ => h4 v hv), n5, ih _ (by omega), stored_cons h1]
      rfl
    · exact collapse_full _ _ _ ht h1
  | hex2 d1 d2 _ ih =>
    by_cases h1 : 1 < t
    · simp only [List.cons_append]
      rw [collapse_x _ _ 1 _ h1 (hex_two d1 d2 _), stored_cons h1]
      simp only [List.drop_succ_cons, List.drop_zero]
      rw [ih _ (by omega)]
      rfl
    · exact collapse_full _ _ _ ht h1
  | @hex1 c1 v1 s r d1 hs _ ih =>
    by_cases h1 : 1 < t
    · simp only [List.cons_append]
      have e : digits hexValue 16 2 (c1 :: (s ++ 0#8 :: junk)) 0#8 = some (0 + 1, BitVec.ofNat 8 v1) := by
        obtain ⟨c, rest, e, hc⟩ := head_hex hs junk
        rw [e]
        exact hex_one d1 hc _
      rw [collapse_x _ _ 0 _ h1 e, stored_cons h1]
      simp only [List.drop_succ_cons, List.drop_zero]
      rw [ih _ (by omega)]
      rfl
    · exact collapse_full _ _ _ ht h1
  | @hex0 s r hs _ ih =>
    by_cases h1 : 1 < t
    · simp only [List.cons_append] at ih ⊢
      have e : digits hexValue 16 2 (s ++ 0#8 :: junk) 0#8 = some (0, 0#8) := by
        obtain ⟨c, rest, e, hc⟩ := head_hex hs junk
        rw [e]
        exact hex_zero hc _
      rw [collapse_x0 _ _ _ h1 e, stored_cons h1, ih _ (by omega)]
      rfl
    · exact collapse_full _ _ _ ht h1
  | oct3 d1 d2 d3 _ ih =>
    by_cases h1 : 1 < t
    · simp only [List.cons_append]
      rw [collapse_oct _ _ _ _ _ h1 (by rw [(octalValue_iff _ _).2 d1]; rfl) (oct_three d1 d2 d3 _),
        stored_cons h1]
      simp only [Nat.add_one_sub_one, List.drop_succ_cons, List.drop_zero]
      rw [ih _ (by omega)]
      rfl
    · exact collapse_full _ _ _ ht h1
  | @oct2 c1 c2 v1 v2 s r d1 d2 hs _ ih =>
    by_cases h1 : 1 < t
    · simp only [List.cons_append]
      have e : digits octalValue 8 3 (c1 :: c2 :: (s ++ 0#8 :: junk)) 0#8 =
          some (2, BitVec.ofNat 8 (8 * v1 + v2)) := by
        obtain ⟨c, rest, e, hc⟩ := head_oct hs junk
        rw [e]
        exact oct_two d1 d2 hc _
      rw [collapse_oct _ _ _ _ _ h1 (by rw [(octalValue_iff _ _).2 d1]; rfl) e, stored_cons h1]
      simp only [Nat.add_one_sub_one, List.drop_succ_cons, List.drop_zero]
      rw [ih _ (by omega)]
      rfl
    · exact collapse_full _ _ _ ht h1
  | @oct1 c1 v1 s r d1 hs _ ih =>
    by_cases h1 : 1 < t
    · simp only [List.cons_append]
      have e : digits octalValue 8 3 (c1 :: (s ++ 0#8 :: junk)) 0#8 = some (1, BitVec.ofNat 8 v1) := by
        obtain ⟨c, rest, e, hc⟩ := head_oct hs junk
        rw [e]
        exact oct_one d1 hc _
      rw [collapse_oct _ _ _ _ _ h1 (by rw [(octalValue_iff _ _).2 d1]; rfl) e, stored_cons h1]
      simp only [Nat.sub_self, List.drop_zero]
      rw [ih _ (by omega)]
      rfl
    · exact collapse_full _ _ _ ht h1

/-- C60, complete: every terminated source has a meaning, only one, and collapse stores it. -/
theorem escape_collapse_exact (s : List Byte) (h0 : 0#8 ∉ s) :
    ∃ r, Denotes s r ∧ (∀ r', Denotes s r' → r' = r) ∧ ∀ junk t, 0 < t →
      collapse (s ++ 0#8 :: junk) t = some (r.take (t - 1) ++ [0#8]) := by
  obtain ⟨r, hr⟩ := denotes_total s.length s (Nat.le_refl _) h0
  refine ⟨r, hr, fun r' hr' => ?_, fun junk t ht => escape_collapse_denotes hr junk t ht⟩
  have e1 := escape_collapse_denotes hr [] (r.length + r'.length + 1) (by omega)
  have e2 := escape_collapse_denotes hr' [] (r.length + r'.length + 1) (by omega)
  rw [e1, List.take_of_length_le (by omega), List.take_of_length_le (by omega)] at e2
  simpa using e2.symm

/-- `A\x4F\101\n\q`: upper case hexadecimal, octal, a letter and an unknown letter. -/
example : Denotes [0x41#8, 0x5c#8, 0x78#8, 0x34#8, 0x46#8, 0x5c#8, 0x31#8, 0x30#8, 0x31#8, 0x5c#8, 0x6e#8,
      0x5c#8, 0x71#8] [0x41#8, 0x4f#8, 0x41#8, 0x0a#8, 0x71#8] :=
  .plain (by decide) (by decide)
    (.hex2 (v1 := 4) (v2 := 15) (by unfold HexDigit; decide) (by unfold HexDigit; decide)
      (.oct3 (v1 := 1) (v2 := 0) (v3 := 1) (by unfold OctDigit; decide) (by unfold OctDigit; decide)
        (by unfold OctDigit; decide)
        (.letter (by decide)
          (.itself (by decide) (by decide) (by decide) (by decide)
            (fun v => by unfold OctDigit; simp; omega) (fun v => by simp [named]) .nil))))

end Diminuto.Escape
