import Verif.EscapeLemmas

/-!
# Properties C14, C15 and C56: the Escape feature
-/

namespace Diminuto.Escape

/-! ## C15: bounds and termination -/

/-- A C string result stored in a buffer of `tsize` bytes: never more than
`tsize` bytes are stored and the last one stored is the NUL, unless the buffer has
no room at all. -/
def StoredString (tsize : Nat) (out : List Byte) : Prop :=
  out.length ≤ tsize ∧ (tsize ≠ 0 → out.getLast? = some 0#8)

/-- C15 for collapse: for every terminated source (whatever follows the
terminator) nothing is read beyond the source object, and the result is stored
within bounds and terminated. -/
theorem escape_collapse_bounded (src : List Byte) (tsize : Nat) (hz : 0#8 ∈ src) :
    ∃ out, collapse src tsize = some out ∧ StoredString tsize out := by
  obtain ⟨out, ho, h1, h2⟩ := collapse_total src.length src tsize (Nat.le_refl _) hz
  refine ⟨out, ho, h1, fun ht => ?_⟩
  obtain ⟨body, hb⟩ := h2 (by omega)
  rw [hb]; simp

/-- `a\x4` NUL: a hexadecimal sequence cut short by the terminator. -/
example : collapse [0x61#8, 0x5c#8, 0x78#8, 0x34#8, 0#8] 10 = some [0x61#8, 0x04#8, 0#8] := by
  decide +kernel

/-- Independent specification of the C escape sequence for a byte. -/
def cSequence (special : List Byte) (c : Byte) : List Byte :=
  if c ∉ special ∧ c ≠ 0x5c#8 ∧ 0x20#8 ≤ c ∧ c < 0x7f#8 then [c]
  else match [(0x5c#8, 0x5c#8), (0x00#8, 0x30#8), (0x07#8, 0x61#8), (0x08#8, 0x62#8),
      (0x0c#8, 0x66#8), (0x0a#8, 0x6e#8), (0x0d#8, 0x72#8), (0x09#8, 0x74#8),
      (0x0b#8, 0x76#8)].lookup c with
    | some e => [0x5c#8, e]
    | none =>
      if c ∈ special then [0x5c#8, c]
      else
        let hex := "0123456789abcdef".toList.map fun ch => BitVec.ofNat 8 ch.toNat
        [0x5c#8, 0x78#8, hex.getD (c.toNat / 16) 0#8, hex.getD (c.toNat % 16) 0#8]

theorem enc_spec (special : Option (List Byte)) (c : Byte) :
    enc special c = cSequence (special.getD []) c := by
  have hp : ∀ c : Byte, (printable c = true ↔ c ≠ 0x5c#8 ∧ 0x20#8 ≤ c ∧ c < 0x7f#8) := by
    decide +kernel
  have hs : ∀ c : Byte, shortEscape c = [(0x5c#8, 0x5c#8), (0x00#8, 0x30#8), (0x07#8, 0x61#8),
      (0x08#8, 0x62#8), (0x0c#8, 0x66#8), (0x0a#8, 0x6e#8), (0x0d#8, 0x72#8), (0x09#8, 0x74#8),
      (0x0b#8, 0x76#8)].lookup c := by decide +kernel
  have hh : ∀ c : Byte, HEX (c.toNat / 16 % 16) =
        (("0123456789abcdef".toList.map fun ch => BitVec.ofNat 8 ch.toNat).getD (c.toNat / 16) 0#8) ∧
      HEX (c.toNat % 16) =
        (("0123456789abcdef".toList.map fun ch => BitVec.ofNat 8 ch.toNat).getD (c.toNat % 16) 0#8) := by
    decide +kernel
  have hi : inSpecial special c = true ↔ (c ∈ special.getD [] ∨ (special.isSome = true ∧ c = 0#8)) := by
    cases special with
    | none => simp [inSpecial]
    | some l => simp [inSpecial]
  have h0 : shortEscape 0#8 = some 0x30#8 := by decide
  unfold enc cSequence
  simp only []
  rw [← hs c, ← (hh c).1, ← (hh c).2]
  by_cases h1 : c = 0#8
  · subst h1
    rw [h0]
    have : printable 0#8 = false := by decide
    rw [this]
    simp
  · have hi' : inSpecial special c = true ↔ c ∈ special.getD [] := by
      rw [hi]; simp [h1]
    by_cases h2 : c ∈ special.getD []
    · rw [hi'.mpr h2]
      simp only [h2]
      cases shortEscape c <;> simp
    · have h3 : inSpecial special c = false := by
        cases h : inSpecial special c
        · rfl
        · exact absurd (hi'.mp h) h2
      rw [h3]
      by_cases h4 : printable c = true
      · rw [h4, if_pos (by simp), if_pos ⟨h2, (hp c).mp h4⟩]
      · have h5 : ¬ (c ∉ special.getD [] ∧ c ≠ 0x5c#8 ∧ 0x20#8 ≤ c ∧ c < 0x7f#8) :=
          fun h => h4 ((hp c).mpr h.2)
        have h6 : printable c = false := by simpa using h4
        rw [if_neg h5, h6]
        simp only [h2]
        cases shortEscape c <;> simp

/-- C15 for expand: exactly the source bytes are read; the result is stored
within bounds and terminated, and (the buffer having room for anything) consists
of the whole escape sequences of the longest prefix of the source that fits. -/
theorem escape_expand_bounded (special : Option (List Byte)) (src : List Byte) (tsize : Nat) :
    ∃ out, expand special src src.length tsize = some out ∧ StoredString tsize out ∧
      (tsize ≠ 0 → ∃ k, k ≤ src.length ∧
        out = (src.take k).flatMap (cSequence (special.getD [])) ++ [0#8] ∧
        (k < src.length →
          tsize < ((src.take (k + 1)).flatMap (cSequence (special.getD []))).length + 1)) := by
  have he : enc special = cSequence (special.getD []) := funext (enc_spec special)
  rcases Nat.eq_zero_or_pos tsize with h | h
  · subst h
    refine ⟨[], ?_, ⟨by simp, by simp⟩, by simp⟩
    cases src with
    | nil => rfl
    | cons c rest => rw [List.length_cons, expand_step, if_pos (by omega)]; rfl
  · obtain ⟨k, hk, h1, h2, h3⟩ := expand_prefix special src tsize h
    rw [he] at h1 h2 h3
    exact ⟨_, h1, ⟨by simpa using h2, by simp⟩, fun _ => ⟨k, hk, rfl, h3⟩⟩

example : expand (some [0x27#8]) [0x61#8, 0x27#8, 0x0a#8, 0x80#8, 0x62#8] 5 9 =
    some [0x61#8, 0x5c#8, 0x27#8, 0x5c#8, 0x6e#8, 0#8] := by decide +kernel

/-! ## C14: round trip -/

/-- The extra special characters collide with no C escape sequence: none of
`a b f n r t v x` or an octal digit. -/
def Harmless (special : Option (List Byte)) : Prop :=
  ∀ c ∈ special.getD [], c ∉ [0x61#8, 0x62#8, 0x66#8, 0x6e#8, 0x72#8, 0x74#8, 0x76#8, 0x78#8,
    0x30#8, 0x31#8, 0x32#8, 0x33#8, 0x34#8, 0x35#8, 0x36#8, 0x37#8]

/-- No NUL byte is directly followed by an octal digit. -/
def NoNulDigit (src : List Byte) : Prop :=
  ∀ pre post d, src = pre ++ 0#8 :: d :: post → ¬ (0x30#8 ≤ d ∧ d ≤ 0x37#8)

theorem octal_none : ∀ d : Byte, ¬ (0x30#8 ≤ d ∧ d ≤ 0x37#8) → octalValue d = none := by
  decide +kernel

theorem harmless_facts : ∀ c : Byte, c ∉ [0x61#8, 0x62#8, 0x66#8, 0x6e#8, 0x72#8, 0x74#8, 0x76#8,
    0x78#8, 0x30#8, 0x31#8, 0x32#8, 0x33#8, 0x34#8, 0x35#8, 0x36#8, 0x37#8] →
    c ≠ 0x78#8 ∧ octalValue c = none ∧ letter c = c := by decide +kernel

theorem enc_head_octal (special : Option (List Byte)) (d : Byte) (h : octalValue d = none) :
    ∃ e t, enc special d = e :: t ∧ octalValue e = none := by
  unfold enc
  split
  · exact ⟨d, [], rfl, h⟩
  · split
    · exact ⟨_, _, rfl, by decide⟩
    · split
      · exact ⟨_, _, rfl, by decide⟩
      · exact ⟨_, _, rfl, by decide⟩

theorem round_trip_aux (special : Option (List Byte)) (hs : Harmless special) (src : List Byte)
    (hn : NoNulDigit src) (t : Nat) (ht : src.length < t) :
    collapse (src.flatMap (enc special) ++ [0#8]) t = some (src ++ [0#8]) := by
  induction src generalizing t with
  | nil =>
    rw [collapse.eq_def]
    simp only [List.flatMap_nil, List.nil_append]
    split
    · simp [finish]; simp at ht; omega
    · simp [finish]; omega
  | cons c rest ih =>
    have hn' : NoNulDigit rest := fun pre post d h => hn (c :: pre) post d (by rw [h]; rfl)
    simp only [List.length_cons] at ht
    have ih' := ih hn' (t - 1) (by omega)
    have ht1 : 1 < t := by omega
    rw [List.flatMap_cons, List.append_assoc]
    generalize htail : List.flatMap (enc special) rest ++ [0#8] = tail at ih'
    have hfin : ((collapse tail (t - 1)).bind fun out => some (c :: out)) =
        some (c :: rest ++ [0#8]) := by rw [ih']; rfl
    rw [← hfin]
    unfold enc
    by_cases h1 : (!inSpecial special c && printable c) = true
    · rw [if_pos h1]
      have hp : printable c = true := by simp at h1; exact h1.2
      obtain ⟨p1, p2⟩ := plain_facts c hp
      exact collapse_plain c tail t ht1 p1 p2
    · rw [if_neg h1]
      by_cases h0 : c = 0#8
      · subst h0
        have he : shortEscape 0#8 = some 0x30#8 := by decide
        rw [he]
        have hd : ∃ d tl, tail = d :: tl ∧ octalValue d = none := by
          cases rest with
          | nil => exact ⟨0#8, [], by rw [← htail]; rfl, by decide⟩
          | cons d post =>
            obtain ⟨e, tl, h2, h3⟩ := enc_head_octal special d
              (octal_none d (hn [] post d rfl))
            exact ⟨e, _, by rw [← htail, List.flatMap_cons, h2]; rfl, h3⟩
        obtain ⟨d, tl, hd1, hd2⟩ := hd
        rw [hd1]
        exact collapse_nul tl t ht1 d hd2
      · cases he : shortEscape c with
        | some e =>
          obtain ⟨e0, e1, e2, e3, e4, e5⟩ := shortEscape_some c e he h0
          have := collapse_letter e tail t ht1 e0 e1 e2 e3 e4
          rw [e5] at this
          exact this
        | none =>
          obtain ⟨f0, f1, f2, f3⟩ := shortEscape_none c he
          by_cases h2 : inSpecial special c = true
          · simp only [h2, if_true]
            have hmem : c ∈ special.getD [] := by
              cases special with
              | none => simp [inSpecial] at h2
              | some l =>
                simp [inSpecial] at h2
                rcases h2 with h2 | h2
                · exact h2
                · exact absurd h2 h0
            obtain ⟨g1, g2, g3⟩ := harmless_facts c (hs c hmem)
            have := collapse_letter c tail t ht1 f0 f1 f2 g1 g2
            rw [g3] at this
            exact this
          · simp only [h2]
            exact collapse_hex c tail t ht1

/-- C14, the part that holds: with harmless special characters, and when no NUL is
directly followed by an octal digit, collapsing the expansion gives the source
back.  Missing: the other sources and special sets, for which the claim is false
(the two counterexamples below). -/
theorem escape_round_trip_partial (special : Option (List Byte)) (src : List Byte)
    (hs : Harmless special) (hn : NoNulDigit src) (tsize size : Nat)
    (ht : 4 * src.length < tsize) (hsz : src.length < size) :
    ∃ mid, expand special src src.length tsize = some mid ∧
      collapse mid size = some (src ++ [0#8]) := by
  obtain ⟨k, hk, h1, h2, h3⟩ := expand_prefix special src tsize (by omega)
  have hlen : ∀ l : List Byte, (l.flatMap (enc special)).length ≤ 4 * l.length := by
    intro l
    induction l with
    | nil => simp
    | cons c l ih =>
      have := enc_length_le special c
      rw [List.flatMap_cons, List.length_append, List.length_cons]; omega
  have hk' : k = src.length := by
    rcases Nat.lt_or_ge k src.length with h | h
    · have h4 := h3 h
      have h5 := hlen (src.take (k + 1))
      have h6 : (src.take (k + 1)).length ≤ src.length := by simp; omega
      omega
    · omega
  rw [hk', List.take_length] at h1
  exact ⟨_, h1, round_trip_aux special hs src hn size hsz⟩

example : Harmless (some [0x27#8, 0x22#8, 0x20#8]) ∧ NoNulDigit [0#8, 0x41#8, 0xff#8] := by
  constructor
  · unfold Harmless; decide
  · intro pre post d h hd
    match pre with
    | [] => simp at h; obtain ⟨h, _⟩ := h; subst h; revert hd; decide
    | [_] => simp at h
    | [_, _] => simp at h
    | _ :: _ :: _ :: _ => simp at h

/-- C14 is false without special characters: the two bytes NUL, `1` expand to
`\01`, which collapses to the single byte 0x01. -/
theorem escape_round_trip_nul_counterexample :
    ∃ mid, expand none [0#8, 0x31#8] 2 100 = some mid ∧
      collapse mid 100 = some [0x01#8, 0#8] := ⟨[0x5c#8, 0x30#8, 0x31#8, 0#8], by decide +kernel⟩

/-- C14 is false for special sets that contain letters: with `n` special, `n`
expands to `\n`, which collapses to a newline. -/
theorem escape_round_trip_special_counterexample :
    ∃ mid, expand (some [0x6e#8]) [0x6e#8] 1 100 = some mid ∧
      collapse mid 100 = some [0x0a#8, 0#8] := ⟨[0x5c#8, 0x6e#8, 0#8], by decide +kernel⟩

/-! ## C56: trim -/

/-- What trim is documented to keep of `body` followed by `n` trailing blanks
(`body` not ending in a blank), where `b` is the number of backslashes `body`
ends in: one blank more when the blank is escaped, that is, `b` is odd. -/
def keptBy (body : List Byte) (n b : Nat) : List Byte :=
  if 0 < n ∧ b % 2 = 1 then body ++ [0x20#8] else body

/-- `body` ends in exactly `b` backslashes. -/
def EndsIn (body : List Byte) (b : Nat) : Prop :=
  ∃ p, body = p ++ List.replicate b 0x5c#8 ∧ p.getLast? ≠ some 0x5c#8

theorem blanks_append (body : List Byte) (n : Nat) (h : body.getLast? ≠ some 0x20#8) :
    blanks (body ++ List.replicate n 0x20#8).reverse = n := by
  rw [List.reverse_append, List.reverse_replicate]
  have h2 : ∀ l : List Byte, l.head? ≠ some 0x20#8 → ∀ n, blanks (List.replicate n 0x20#8 ++ l) = n := by
    intro l hl n
    induction n with
    | zero =>
      cases l with
      | nil => rfl
      | cons c t => simp at hl; simp [blanks, hl]
    | succ n ih => rw [List.replicate_succ, List.cons_append, blanks, if_pos rfl, ih]
  exact h2 _ (by simpa using h) n

theorem trimSize_spec (body : List Byte) (n b : Nat) (hb : body.getLast? ≠ some 0x20#8)
    (he : EndsIn body b) (h2 : b ≤ 2) :
    (body ++ List.replicate n 0x20#8).take (trimSize (body ++ List.replicate n 0x20#8)) =
      keptBy body n b := by
  obtain ⟨p, hp, hpl⟩ := he
  unfold trimSize keptBy
  rw [blanks_append body n hb]
  simp only [List.length_append, List.length_replicate, Nat.add_sub_cancel]
  by_cases h0 : body.length = 0
  · have hnil : body = [] := List.eq_nil_of_length_eq_zero h0
    subst hnil
    have : b = 0 := by
      have := congrArg List.length hp
      simp at this; omega
    subst this
    simp
  · rw [if_neg h0]
    by_cases hn : n = 0
    · subst hn
      simp
    · rw [if_neg hn]
      have g1 : (body ++ List.replicate n 0x20#8)[body.length - 1]? = body.getLast? := by
        rw [List.getElem?_append_left (by omega), List.getLast?_eq_getElem?]
      have g2 : 1 < body.length →
          (body ++ List.replicate n 0x20#8)[body.length - 2]? = body.dropLast.getLast? := by
        intro h
        rw [List.getElem?_append_left (by omega), List.getLast?_eq_getElem?, List.length_dropLast,
          List.getElem?_dropLast, if_pos (by omega)]
        congr 1
      rw [g1]
      match b, h2 with
      | 0, _ =>
        simp only [List.replicate_zero, List.append_nil] at hp
        rw [hp, if_pos (Or.inl hpl)]
        simp
      | 1, _ =>
        have hl : body.getLast? = some 0x5c#8 := by rw [hp]; simp
        have hd : body.dropLast = p := by rw [hp]; simp
        rw [if_neg]
        · rw [if_pos ⟨by omega, rfl⟩]
          obtain ⟨m, rfl⟩ : ∃ m, n = m + 1 := ⟨n - 1, by omega⟩
          rw [List.take_append, List.take_of_length_le (by omega)]
          simp [List.replicate_succ]
        · rintro (h | ⟨h, h'⟩)
          · exact h hl
          · rw [g2 h, hd] at h'
            exact hpl h'
      | 2, _ =>
        have hd : body.dropLast.getLast? = some 0x5c#8 := by
          rw [hp]
          simp [List.replicate_succ]
        have hlen : 1 < body.length := by rw [hp]; simp
        rw [if_pos (Or.inr ⟨hlen, by rw [g2 hlen, hd]⟩)]
        simp

/-- C56, the part that holds: for a string with at most two backslashes before
its trailing blanks, trim stores the documented result, truncated to the buffer
and terminated, within bounds, and returns its length.  Missing: three or more
backslashes, for which the claim is false. -/
theorem escape_trim_partial (body : List Byte) (n b : Nat) (hb : body.getLast? ≠ some 0x20#8)
    (he : EndsIn body b) (h2 : b ≤ 2) (tsize : Nat) (ht : 0 < tsize) :
    trim (body ++ List.replicate n 0x20#8) tsize =
      ((keptBy body n b).take (tsize - 1) ++ [0#8],
       min (tsize - 1) (keptBy body n b).length) := by
  have h := trimSize_spec body n b hb he h2
  generalize hs : body ++ List.replicate n 0x20#8 = s at h
  have hle : trimSize s ≤ s.length := by
    unfold trimSize
    simp only []
    split
    · omega
    · split
      · omega
      · split <;> omega
  rw [← h]
  have hlen : (s.take (trimSize s)).length = trimSize s := by simp; omega
  unfold trim
  simp only [hlen]
  rw [if_neg (by omega), List.take_take]
  by_cases h1 : tsize < trimSize s
  · rw [if_pos h1, if_neg (by omega)]
    rw [Nat.min_eq_left (by omega)]
  · rw [if_neg h1]
    by_cases h3 : tsize > trimSize s
    · rw [if_pos h3, Nat.min_eq_right (by omega)]
    · rw [if_neg h3, Nat.min_eq_left (by omega)]
      have : tsize = trimSize s := by omega
      rw [this]

/-- C56 whatever the string: trim stores within bounds a terminated prefix. -/
theorem escape_trim_bounded (s : List Byte) (tsize : Nat) :
    StoredString tsize (trim s tsize).1 ∧ ∃ k, (trim s tsize).1.take (trim s tsize).2 = s.take k := by
  unfold trim StoredString
  simp only []
  split
  · rename_i h
    subst h
    refine ⟨⟨?_, by simp⟩, 0, ?_⟩
    · split <;> simp_all
    · split <;> simp_all
  · rename_i h
    have hle : ∀ m, m ≤ s.length → (s.take m).length = m := fun m hm => by simp; omega
    have hts : trimSize s ≤ s.length := by
      unfold trimSize
      simp only []
      split
      · omega
      · split
        · omega
        · split <;> omega
    have key : ∀ m, m ≤ s.length → (s.take m ++ [0#8]).take m = s.take m := by
      intro m hm
      rw [List.take_append_of_le_length (by rw [hle _ hm]; omega), List.take_take, Nat.min_self]
    split
    · split
      · omega
      · exact ⟨⟨by simp; omega, by simp⟩, tsize - 1, key _ (by omega)⟩
    · split
      · exact ⟨⟨by simp; omega, by simp⟩, trimSize s, key _ (by omega)⟩
      · exact ⟨⟨by simp; omega, by simp⟩, trimSize s - 1, key _ (by omega)⟩

/-- `a\ ` with two trailing blanks: one is kept. -/
example : trim [0x61#8, 0x5c#8, 0x20#8, 0x20#8] 10 = ([0x61#8, 0x5c#8, 0x20#8, 0#8], 3) ∧
    EndsIn [0x61#8, 0x5c#8] 1 := by
  refine ⟨by decide +kernel, [0x61#8], rfl, by decide⟩

/-- C56 is false with three backslashes: an escaped backslash followed by an
escaped blank.  The blank is trimmed and a dangling backslash remains. -/
theorem escape_trim_counterexample :
    trim [0x5c#8, 0x5c#8, 0x5c#8, 0x20#8] 10 = ([0x5c#8, 0x5c#8, 0x5c#8, 0#8], 3) ∧
    EndsIn [0x5c#8, 0x5c#8, 0x5c#8] 3 ∧
    keptBy [0x5c#8, 0x5c#8, 0x5c#8] 1 3 = [0x5c#8, 0x5c#8, 0x5c#8, 0x20#8] := by
  refine ⟨by decide +kernel, ⟨[], rfl, by decide⟩, by decide⟩

end Diminuto.Escape
