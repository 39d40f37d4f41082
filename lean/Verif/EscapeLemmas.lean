import Verif.Escape

/-! # Helper lemmas on the Escape model -/

namespace Diminuto.Escape

theorem finish_length (t : Nat) : (finish t).length ≤ t := by
  unfold finish; split <;> simp; omega

/-! ## Collapse -/

theorem digits_total (value : Byte → Option Nat) (radix : Nat) (h0 : value 0#8 = none) (n : Nat)
    (l : List Byte) (h : 0#8 ∈ l) (b : Byte) :
    ∃ k b', digits value radix n l b = some (k, b') ∧ k ≤ n ∧ 0#8 ∈ l.drop k := by
  induction n generalizing l b with
  | zero => exact ⟨0, b, by cases l <;> rfl, by omega, by simpa using h⟩
  | succ n ih =>
    match l with
    | [] => simp at h
    | c :: rest =>
      unfold digits
      cases hv : value c with
      | none => exact ⟨0, b, rfl, by omega, by simpa using h⟩
      | some v =>
        have hc : c ≠ 0#8 := by intro hc; rw [hc, h0] at hv; cases hv
        have h' : 0#8 ∈ rest := by
          rcases List.mem_cons.mp h with h | h
          · exact absurd h.symm hc
          · exact h
        obtain ⟨k, b', hd, hk, hm⟩ := ih rest h' (BitVec.ofNat 8 (b.toNat * radix + v))
        refine ⟨k + 1, b', ?_, by omega, by simpa using hm⟩
        simp only [hd, bind, Option.bind_some]

/-- What is known of every collapse of a terminated string. -/
def Good (tsize : Nat) (out : List Byte) : Prop :=
  out.length ≤ tsize ∧ (0 < tsize → ∃ body, out = body ++ [0#8])

theorem good_finish (t : Nat) : Good t (finish t) := by
  refine ⟨finish_length t, fun h => ⟨[], ?_⟩⟩
  simp [finish, h]

theorem good_cons {t : Nat} {out : List Byte} (ht : 1 < t) (h : Good (t - 1) out) (b : Byte) :
    Good t (b :: out) := by
  obtain ⟨h1, h2⟩ := h
  obtain ⟨body, hb⟩ := h2 (by omega)
  refine ⟨by simp; omega, fun _ => ⟨b :: body, by rw [hb]; rfl⟩⟩

theorem collapse_total (n : Nat) : ∀ (ff : List Byte) (tsize : Nat), ff.length ≤ n → 0#8 ∈ ff →
    ∃ out, collapse ff tsize = some out ∧ Good tsize out := by
  induction n with
  | zero =>
    intro ff tsize hl hm
    cases ff with
    | nil => simp at hm
    | cons => simp at hl
  | succ n ih =>
    intro ff tsize hl hm
    rw [collapse.eq_def]
    split
    · exact ⟨_, rfl, good_finish _⟩
    · rename_i ht
      have ht : 1 < tsize := by omega
      match ff with
      | [] => simp at hm
      | c :: rest =>
        simp only [List.length_cons] at hl
        simp only []
        split
        · exact ⟨_, rfl, good_finish _⟩
        · rename_i hc0
          have hm' : 0#8 ∈ rest := by
            rcases List.mem_cons.mp hm with h | h
            · exact absurd h.symm hc0
            · exact h
          have hcons : ∀ (l : List Byte) (b : Byte), l.length ≤ n → 0#8 ∈ l →
              ∃ out, (do let out ← collapse l (tsize - 1); some (b :: out)) = some out ∧
                Good tsize out := by
            intro l b hln hlm
            obtain ⟨out, ho, hg⟩ := ih l (tsize - 1) hln hlm
            exact ⟨b :: out, by simp only [ho, bind, Option.bind_some], good_cons ht hg b⟩
          split
          · match rest with
            | [] => simp at hm'
            | d :: rest2 =>
              simp only [List.length_cons] at hl
              simp only []
              split
              · exact ih _ _ (by simp; omega) hm'
              · rename_i hd0
                have hm2 : 0#8 ∈ rest2 := by
                  rcases List.mem_cons.mp hm' with h | h
                  · exact absurd h.symm hd0
                  · exact h
                split
                · exact ih _ _ (by omega) hm2
                · split
                  · exact ih _ _ (by omega) hm2
                  · split
                    · obtain ⟨k, b, hd, hk, hdm⟩ := digits_total hexValue 16 (by decide) 2 rest2 hm2 0#8
                      rw [hd]
                      cases k with
                      | zero => exact hcons _ _ (by simp; omega) hm'
                      | succ k => exact hcons _ _ (by simp; omega) hdm
                    · split
                      · obtain ⟨k, b, hd, hk, hdm⟩ :=
                          digits_total octalValue 8 (by decide) 3 (d :: rest2) hm' 0#8
                        rw [hd]
                        refine hcons _ _ (by simp; omega) ?_
                        cases k with
                        | zero => simpa using hm2
                        | succ k => simpa using hdm
                      · exact hcons _ _ (by omega) hm2
          · exact hcons _ _ (by omega) hm'

/-! ## Expand -/

/-- The expansion of one byte. -/
def enc (special : Option (List Byte)) (c : Byte) : List Byte :=
  if !inSpecial special c && printable c then [c]
  else match shortEscape c with
  | some e => [0x5c#8, e]
  | none =>
    if inSpecial special c then [0x5c#8, c]
    else [0x5c#8, 0x78#8, HEX (c.toNat / 16 % 16), HEX (c.toNat % 16)]

theorem enc_length_pos (special : Option (List Byte)) (c : Byte) : 1 ≤ (enc special c).length := by
  unfold enc
  split
  · simp
  · split
    · simp
    · split <;> simp

theorem enc_length_le (special : Option (List Byte)) (c : Byte) : (enc special c).length ≤ 4 := by
  unfold enc
  split
  · simp
  · split
    · simp
    · split <;> simp

theorem expand_step (special : Option (List Byte)) (c : Byte) (rest : List Byte) (n tsize : Nat) :
    expand special (c :: rest) (n + 1) tsize =
      if tsize ≤ (enc special c).length then some (finish tsize)
      else (expand special rest n (tsize - (enc special c).length)).bind
        fun out => some (enc special c ++ out) := by
  rw [expand]
  have hp := enc_length_pos special c
  by_cases ht : tsize ≤ 1
  · rw [if_pos ht, if_pos (by omega)]
  · rw [if_neg ht]
    unfold enc
    by_cases h1 : (!inSpecial special c && printable c) = true
    · simp only [h1, if_true, bind]
      rw [if_neg (by simp; omega)]
      rfl
    · simp only [h1, bind]
      cases h2 : shortEscape c with
      | some e =>
        simp only [Bool.false_eq_true, if_false]
        by_cases ht2 : tsize ≤ 2
        · rw [if_pos ht2, if_pos (by simpa using ht2)]
        · rw [if_neg ht2, if_neg (by simpa using ht2)]
          rfl
      | none =>
        simp only [Bool.false_eq_true, if_false]
        by_cases h3 : inSpecial special c = true
        · simp only [h3, if_true]
          by_cases ht2 : tsize ≤ 2
          · rw [if_pos ht2, if_pos (by simpa using ht2)]
          · rw [if_neg ht2, if_neg (by simpa using ht2)]
            rfl
        · simp only [h3, Bool.false_eq_true, if_false]
          by_cases ht2 : tsize ≤ 2
          · rw [if_pos ht2, if_pos (by simp; omega)]
          · rw [if_neg ht2]
            by_cases ht4 : tsize ≤ 4
            · simp only [ht4, if_true]
              rw [if_pos (by simp; omega)]
            · simp only [ht4, if_false]
              rw [if_neg (by simp; omega)]
              rfl

/-- The expansion is that of the longest prefix that fits. -/
theorem expand_prefix (special : Option (List Byte)) (src : List Byte) (tsize : Nat) (ht : 0 < tsize) :
    ∃ k, k ≤ src.length ∧
      expand special src src.length tsize = some ((src.take k).flatMap (enc special) ++ [0#8]) ∧
      ((src.take k).flatMap (enc special)).length + 1 ≤ tsize ∧
      (k < src.length → tsize < ((src.take (k + 1)).flatMap (enc special)).length + 1) := by
  induction src generalizing tsize with
  | nil => exact ⟨0, by simp, by simp [expand, finish, ht], by simp; omega, by simp⟩
  | cons c rest ih =>
    rw [List.length_cons, expand_step]
    by_cases h : tsize ≤ (enc special c).length
    · rw [if_pos h]
      exact ⟨0, by omega, by simp [finish, ht], by simp; omega, fun _ => by simp; omega⟩
    · rw [if_neg h]
      obtain ⟨k, hk, he, hl, hm⟩ := ih (tsize - (enc special c).length) (by omega)
      refine ⟨k + 1, by omega, ?_, ?_, ?_⟩
      · rw [he]; simp
      · simp only [List.take_succ_cons, List.flatMap_cons, List.length_append]; omega
      · intro hlt
        have := hm (by omega)
        rw [List.take_succ_cons, List.flatMap_cons, List.length_append]; omega

/-! ## Collapsing what was expanded -/

theorem hex_digits : ∀ c : Byte, ∀ tail : List Byte,
    digits hexValue 16 2 (HEX (c.toNat / 16 % 16) :: HEX (c.toNat % 16) :: tail) 0#8 =
      some (2, c) := by
  have h : ∀ c : Byte, ∃ a b, hexValue (HEX (c.toNat / 16 % 16)) = some a ∧
      hexValue (HEX (c.toNat % 16)) = some b ∧
      BitVec.ofNat 8 ((BitVec.ofNat 8 ((0#8).toNat * 16 + a)).toNat * 16 + b) = c := by
    have h' : ∀ c : Byte, hexValue (HEX (c.toNat / 16 % 16)) = some (c.toNat / 16 % 16) ∧
        hexValue (HEX (c.toNat % 16)) = some (c.toNat % 16) ∧
        BitVec.ofNat 8 ((BitVec.ofNat 8 ((0#8).toNat * 16 + c.toNat / 16 % 16)).toNat * 16 +
          c.toNat % 16) = c := by decide +kernel
    exact fun c => ⟨_, _, h' c⟩
  intro c tail
  obtain ⟨a, b, ha, hb, hc⟩ := h c
  simp only [digits, ha, hb, bind, Option.bind_some]
  rw [hc]

theorem collapse_plain (c : Byte) (tail : List Byte) (t : Nat) (ht : 1 < t) (h0 : c ≠ 0#8)
    (h1 : c ≠ 0x5c#8) :
    collapse (c :: tail) t = (collapse tail (t - 1)).bind fun out => some (c :: out) := by
  rw [collapse.eq_def, if_neg (by omega)]
  simp only []
  rw [if_neg h0, if_neg h1]; rfl

theorem collapse_letter (d : Byte) (tail : List Byte) (t : Nat) (ht : 1 < t)
    (h0 : d ≠ 0#8) (h1 : d ≠ 0x0a#8) (h2 : d ≠ 0x0d#8) (h3 : d ≠ 0x78#8) (h4 : octalValue d = none) :
    collapse (0x5c#8 :: d :: tail) t =
      (collapse tail (t - 1)).bind fun out => some (letter d :: out) := by
  rw [collapse.eq_def, if_neg (by omega)]
  simp only []
  rw [if_neg (by decide), if_pos (by trivial)]
  rw [if_neg h0, if_neg h1, if_neg h2, if_neg h3, h4]
  rfl

theorem collapse_nul (tail : List Byte) (t : Nat) (ht : 1 < t) (d : Byte) (h : octalValue d = none) :
    collapse (0x5c#8 :: 0x30#8 :: d :: tail) t =
      (collapse (d :: tail) (t - 1)).bind fun out => some (0#8 :: out) := by
  rw [collapse.eq_def, if_neg (by omega)]
  simp only []
  rw [if_neg (by decide), if_pos (by trivial)]
  rw [if_neg (by decide), if_neg (by decide), if_neg (by decide), if_neg (by decide),
    if_pos (by decide)]
  have : digits octalValue 8 3 (0x30#8 :: d :: tail) 0#8 = some (1, 0#8) := by
    have h0 : octalValue 0x30#8 = some 0 := by decide
    simp only [digits, h, h0, bind, Option.bind_some]
    rfl
  rw [this]
  rfl

theorem collapse_hex (c : Byte) (tail : List Byte) (t : Nat) (ht : 1 < t) :
    collapse (0x5c#8 :: 0x78#8 :: HEX (c.toNat / 16 % 16) :: HEX (c.toNat % 16) :: tail) t =
      (collapse tail (t - 1)).bind fun out => some (c :: out) := by
  rw [collapse.eq_def, if_neg (by omega)]
  simp only []
  rw [if_neg (by decide), if_pos (by trivial)]
  rw [if_neg (by decide), if_neg (by decide), if_neg (by decide), if_pos (by decide), hex_digits]
  rfl

theorem shortEscape_some : ∀ c e : Byte, shortEscape c = some e → c ≠ 0#8 →
    e ≠ 0#8 ∧ e ≠ 0x0a#8 ∧ e ≠ 0x0d#8 ∧ e ≠ 0x78#8 ∧ octalValue e = none ∧ letter e = c := by
  intro c e h hc
  unfold shortEscape at h
  repeat' (split at h)
  all_goals (first | (simp at h; done) | skip)
  all_goals (simp only [Option.some.injEq] at h; subst h)
  all_goals (first | contradiction | (subst_vars; decide))

theorem shortEscape_none : ∀ c : Byte, shortEscape c = none →
    c ≠ 0#8 ∧ c ≠ 0x0a#8 ∧ c ≠ 0x0d#8 ∧ c ≠ 0x5c#8 := by
  decide +kernel

theorem plain_facts : ∀ c : Byte, printable c = true → c ≠ 0#8 ∧ c ≠ 0x5c#8 := by
  decide +kernel

end Diminuto.Escape
