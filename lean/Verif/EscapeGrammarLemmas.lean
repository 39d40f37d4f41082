import Verif.EscapeGrammarSpec

/-!
# Lemmas: the escape sequences of the C language
-/

namespace Diminuto.Escape

theorem hexValue_iff (c : Byte) (v : Nat) : hexValue c = some v ↔ HexDigit c v := by
  unfold hexValue HexDigit
  split
  · simp only [Option.some.injEq]; omega
  · split
    · simp only [Option.some.injEq]; omega
    · split
      · simp only [Option.some.injEq]; omega
      · simp only [reduceCtorEq, false_iff]; omega

theorem octalValue_iff (c : Byte) (v : Nat) : octalValue c = some v ↔ OctDigit c v := by
  unfold octalValue OctDigit
  split
  · simp only [Option.some.injEq]; omega
  · simp only [reduceCtorEq, false_iff]; omega

theorem hexValue_none {c : Byte} (h : ¬ ∃ v, HexDigit c v) : hexValue c = none := by
  cases hv : hexValue c with
  | none => rfl
  | some v => exact absurd ⟨v, (hexValue_iff c v).1 hv⟩ h

theorem octalValue_none {c : Byte} (h : ¬ ∃ v, OctDigit c v) : octalValue c = none := by
  cases hv : octalValue c with
  | none => rfl
  | some v => exact absurd ⟨v, (octalValue_iff c v).1 hv⟩ h

/-- What follows, with its terminator, begins with something that is no digit. -/
theorem head_hex {s : List Byte} (hs : StartsNot (fun c => ∃ v, HexDigit c v) s) (junk : List Byte) :
    ∃ c rest, s ++ 0#8 :: junk = c :: rest ∧ hexValue c = none := by
  cases s with
  | nil => exact ⟨_, _, rfl, by decide⟩
  | cons c s => exact ⟨c, _, rfl, hexValue_none (hs c rfl)⟩

theorem head_oct {s : List Byte} (hs : StartsNot (fun c => ∃ v, OctDigit c v) s) (junk : List Byte) :
    ∃ c rest, s ++ 0#8 :: junk = c :: rest ∧ octalValue c = none := by
  cases s with
  | nil => exact ⟨_, _, rfl, by decide⟩
  | cons c s => exact ⟨c, _, rfl, octalValue_none (hs c rfl)⟩

theorem collapse_continued (d : Byte) (tail : List Byte) (t : Nat) (ht : 1 < t)
    (h : d = 0x0a#8 ∨ d = 0x0d#8) : collapse (0x5c#8 :: d :: tail) t = collapse tail t := by
  rw [collapse.eq_def, if_neg (by omega)]
  simp only []
  rw [if_neg (by decide), if_pos (by trivial)]
  rcases h with rfl | rfl
  · rw [if_neg (by decide), if_pos rfl]
  · rw [if_neg (by decide), if_neg (by decide), if_pos rfl]

theorem collapse_x (tail : List Byte) (t k : Nat) (b : Byte) (ht : 1 < t)
    (h : digits hexValue 16 2 tail 0#8 = some (k + 1, b)) :
    collapse (0x5c#8 :: 0x78#8 :: tail) t =
      (collapse (tail.drop (k + 1)) (t - 1)).bind fun out => some (b :: out) := by
  rw [collapse.eq_def, if_neg (by omega)]
  simp only []
  rw [if_neg (by decide), if_pos (by trivial)]
  rw [if_neg (by decide), if_neg (by decide), if_neg (by decide), if_pos (by trivial), h]
  rfl

theorem collapse_x0 (tail : List Byte) (t : Nat) (b : Byte) (ht : 1 < t)
    (h : digits hexValue 16 2 tail 0#8 = some (0, b)) :
    collapse (0x5c#8 :: 0x78#8 :: tail) t =
      (collapse (0x78#8 :: tail) (t - 1)).bind fun out => some (0x5c#8 :: out) := by
  rw [collapse.eq_def, if_neg (by omega)]
  simp only []
  rw [if_neg (by decide), if_pos (by trivial)]
  rw [if_neg (by decide), if_neg (by decide), if_neg (by decide), if_pos (by trivial), h]
  rfl

theorem oct_not : ∀ c : Byte, (octalValue c).isSome → c ≠ 0#8 ∧ c ≠ 0x0a#8 ∧ c ≠ 0x0d#8 ∧
    c ≠ 0x78#8 := by decide +kernel

theorem collapse_oct (c : Byte) (tail : List Byte) (t k : Nat) (b : Byte) (ht : 1 < t)
    (hc : (octalValue c).isSome) (h : digits octalValue 8 3 (c :: tail) 0#8 = some (k, b)) :
    collapse (0x5c#8 :: c :: tail) t =
      (collapse (tail.drop (k - 1)) (t - 1)).bind fun out => some (b :: out) := by
  obtain ⟨h0, h1, h2, h3⟩ := oct_not c hc
  rw [collapse.eq_def, if_neg (by omega)]
  simp only []
  rw [if_neg (by decide), if_pos (by trivial)]
  rw [if_neg h0, if_neg h1, if_neg h2, if_neg h3, if_pos hc, h]
  rfl

theorem named_facts : ∀ c v : Byte, (c, v) ∈ named →
    c ≠ 0#8 ∧ c ≠ 0x0a#8 ∧ c ≠ 0x0d#8 ∧ c ≠ 0x78#8 ∧ octalValue c = none ∧ letter c = v := by
  intro c v h
  simp only [named, List.mem_cons, List.not_mem_nil, or_false, Prod.mk.injEq] at h
  rcases h with ⟨rfl, rfl⟩ | ⟨rfl, rfl⟩ | ⟨rfl, rfl⟩ | ⟨rfl, rfl⟩ | ⟨rfl, rfl⟩ | ⟨rfl, rfl⟩ | ⟨rfl, rfl⟩ <;>
    decide

theorem letter_itself : ∀ c : Byte, letter c = c ∨ (c, letter c) ∈ named := by decide +kernel

/-- The result of storing `r` in a buffer of `t` bytes. -/
def stored (r : List Byte) (t : Nat) : List Byte := r.take (t - 1) ++ [0#8]

theorem stored_cons {t : Nat} (ht : 1 < t) (b : Byte) (r : List Byte) :
    stored (b :: r) t = b :: stored r (t - 1) := by
  obtain ⟨n, rfl⟩ : ∃ n, t = n + 2 := ⟨t - 2, by omega⟩
  simp [stored]

theorem hex_two {c1 c2 : Byte} {v1 v2 : Nat} (h1 : HexDigit c1 v1) (h2 : HexDigit c2 v2)
    (tail : List Byte) :
    digits hexValue 16 2 (c1 :: c2 :: tail) 0#8 = some (2, BitVec.ofNat 8 (16 * v1 + v2)) := by
  have b1 : v1 < 16 := by unfold HexDigit at h1; omega
  simp only [digits, (hexValue_iff _ _).2 h1, (hexValue_iff _ _).2 h2, bind, Option.bind_some]
  congr 2
  apply BitVec.eq_of_toNat_eq
  simp only [BitVec.toNat_ofNat]
  omega

theorem hex_one {c1 c2 : Byte} {v1 : Nat} (h1 : HexDigit c1 v1) (h2 : hexValue c2 = none)
    (tail : List Byte) :
    digits hexValue 16 2 (c1 :: c2 :: tail) 0#8 = some (1, BitVec.ofNat 8 v1) := by
  simp only [digits, (hexValue_iff _ _).2 h1, h2, bind, Option.bind_some]
  simp

theorem hex_zero {c : Byte} (h : hexValue c = none) (tail : List Byte) :
    digits hexValue 16 2 (c :: tail) 0#8 = some (0, 0#8) := by
  simp only [digits, h]

theorem oct_three {c1 c2 c3 : Byte} {v1 v2 v3 : Nat} (h1 : OctDigit c1 v1) (h2 : OctDigit c2 v2)
    (h3 : OctDigit c3 v3) (tail : List Byte) :
    digits octalValue 8 3 (c1 :: c2 :: c3 :: tail) 0#8 =
      some (3, BitVec.ofNat 8 (64 * v1 + 8 * v2 + v3)) := by
  have b1 := h1.1
  have b2 := h2.1
  simp only [digits, (octalValue_iff _ _).2 h1, (octalValue_iff _ _).2 h2, (octalValue_iff _ _).2 h3,
    bind, Option.bind_some]
  congr 2
  apply BitVec.eq_of_toNat_eq
  simp only [BitVec.toNat_ofNat]
  omega

theorem oct_two {c1 c2 c3 : Byte} {v1 v2 : Nat} (h1 : OctDigit c1 v1) (h2 : OctDigit c2 v2)
    (h3 : octalValue c3 = none) (tail : List Byte) :
    digits octalValue 8 3 (c1 :: c2 :: c3 :: tail) 0#8 = some (2, BitVec.ofNat 8 (8 * v1 + v2)) := by
  have b1 := h1.1
  simp only [digits, (octalValue_iff _ _).2 h1, (octalValue_iff _ _).2 h2, h3, bind, Option.bind_some]
  congr 2
  apply BitVec.eq_of_toNat_eq
  simp only [BitVec.toNat_ofNat]
  omega

theorem oct_one {c1 c2 : Byte} {v1 : Nat} (h1 : OctDigit c1 v1) (h2 : octalValue c2 = none)
    (tail : List Byte) :
    digits octalValue 8 3 (c1 :: c2 :: tail) 0#8 = some (1, BitVec.ofNat 8 v1) := by
  simp only [digits, (octalValue_iff _ _).2 h1, h2, bind, Option.bind_some]
  simp

theorem collapse_full (s r : List Byte) (t : Nat) (ht : 0 < t) (h : ¬ 1 < t) :
    collapse s t = some (stored r t) := by
  have e : t = 1 := by omega
  subst e
  rw [collapse.eq_def, if_pos (by omega)]
  simp [finish, stored]

/-- Every string means something, so the above covers every source. -/
theorem denotes_total (n : Nat) : ∀ s : List Byte, s.length ≤ n → 0#8 ∉ s → ∃ r, Denotes s r := by
  induction n with
  | zero =>
    intro s hl _
    rw [List.length_eq_zero_iff.1 (Nat.le_zero.1 hl)]
    exact ⟨_, .nil⟩
  | succ n ih =>
    intro s hl h0
    have ih' : ∀ s', s'.length < s.length → s' <:+ s → ∃ r, Denotes s' r := fun s' h1 h2 =>
      ih s' (by omega) fun h => h0 (h2.subset h)
    cases s with
    | nil => exact ⟨_, .nil⟩
    | cons c s1 =>
      simp only [List.mem_cons, not_or] at h0
      by_cases hc : c = 0x5c#8
      · subst hc
        cases s1 with
        | nil => exact ⟨_, .dangling⟩
        | cons d s2 =>
          simp only [List.mem_cons, not_or] at h0
          have i2 : ∃ r, Denotes s2 r := ih' s2 (by simp; omega) ⟨[0x5c#8, d], rfl⟩
          by_cases hl : d = 0x0a#8 ∨ d = 0x0d#8
          · obtain ⟨r, hr⟩ := i2
            exact ⟨_, .continued hl hr⟩
          · by_cases hx : d = 0x78#8
            · subst hx
              cases s2 with
              | nil =>
                obtain ⟨r, hr⟩ := ih' [0x78#8] (by simp) ⟨[0x5c#8], rfl⟩
                exact ⟨_, .hex0 (fun c hc => by simp at hc) hr⟩
              | cons e s3 =>
                by_cases he : ∃ v, HexDigit e v
                · obtain ⟨v, hv⟩ := he
                  have i3 : ∃ r, Denotes s3 r :=
                    ih' s3 (by simp; omega) ⟨[0x5c#8, 0x78#8, e], rfl⟩
                  cases s3 with
                  | nil =>
                    obtain ⟨r, hr⟩ := i3
                    exact ⟨_, .hex1 hv (fun c hc => by simp at hc) hr⟩
                  | cons f s4 =>
                    by_cases hf : ∃ w, HexDigit f w
                    · obtain ⟨w, hw⟩ := hf
                      obtain ⟨r, hr⟩ := ih' s4 (by simp; omega) ⟨[0x5c#8, 0x78#8, e, f], rfl⟩
                      exact ⟨_, .hex2 hv hw hr⟩
                    · obtain ⟨r, hr⟩ := i3
                      exact ⟨_, .hex1 hv (fun c hc => by simp at hc; subst hc; exact hf) hr⟩
                · obtain ⟨r, hr⟩ := ih' (0x78#8 :: e :: s3) (by simp) ⟨[0x5c#8], rfl⟩
                  exact ⟨_, .hex0 (fun c hc => by simp at hc; subst hc; exact he) hr⟩
            · by_cases ho : ∃ v, OctDigit d v
              · obtain ⟨v, hv⟩ := ho
                cases s2 with
                | nil =>
                  obtain ⟨r, hr⟩ := i2
                  exact ⟨_, .oct1 hv (fun c hc => by simp at hc) hr⟩
                | cons e s3 =>
                  by_cases he : ∃ w, OctDigit e w
                  · obtain ⟨w, hw⟩ := he
                    have i3 : ∃ r, Denotes s3 r := ih' s3 (by simp; omega) ⟨[0x5c#8, d, e], rfl⟩
                    cases s3 with
                    | nil =>
                      obtain ⟨r, hr⟩ := i3
                      exact ⟨_, .oct2 hv hw (fun c hc => by simp at hc) hr⟩
                    | cons f s4 =>
                      by_cases hf : ∃ w, OctDigit f w
                      · obtain ⟨x, hx⟩ := hf
                        obtain ⟨r, hr⟩ := ih' s4 (by simp; omega) ⟨[0x5c#8, d, e, f], rfl⟩
                        exact ⟨_, .oct3 hv hw hx hr⟩
                      · obtain ⟨r, hr⟩ := i3
                        exact ⟨_, .oct2 hv hw (fun c hc => by simp at hc; subst hc; exact hf) hr⟩
                  · obtain ⟨r, hr⟩ := i2
                    exact ⟨_, .oct1 hv (fun c hc => by simp at hc; subst hc; exact he) hr⟩
              · obtain ⟨r, hr⟩ := i2
                by_cases hn : ∃ v, (d, v) ∈ named
                · obtain ⟨v, hv⟩ := hn
                  exact ⟨_, .letter hv hr⟩
                · exact ⟨_, .itself (fun h => h0.2.1 h.symm) (fun h => hl (.inl h)) (fun h => hl (.inr h)) hx
                    (fun v hv => ho ⟨v, hv⟩) (fun v hv => hn ⟨v, hv⟩) hr⟩
      · obtain ⟨r, hr⟩ := ih' s1 (by simp) ⟨[c], rfl⟩
        exact ⟨_, .plain (fun h => h0.1 h.symm) hc hr⟩

end Diminuto.Escape
