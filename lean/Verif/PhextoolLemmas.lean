import Verif.PhextoolSpec
import Verif.PhexProps
import Verif.EscapeGrammarProps
import Verif.InternettoolLemmas

/-!
# Lemmas: the tool that prints its input in hexadecimal
-/

namespace Diminuto.Phextool

open Phex

theorem sized_iff (t : List Byte) (v : Nat) : Internettool.Sized t v ↔ (Number.unsigned t).2.1 = [] ∧ (Number.unsigned t).1 = v := by
  have hu : (Number.unsigned t).2.1 = (Number.strtoull t).2.1 ∧ (Number.unsigned t).1 = (Number.strtoull t).1 := ⟨rfl, rfl⟩
  rw [hu.1, hu.2]
  by_cases ht : t = []
  · subst ht
    have h0 : Number.strtoull [] = (0, [], none) := by decide
    rw [h0]
    constructor
    · rintro (⟨-, h⟩ | ⟨neg, n, hr, hv⟩)
      · exact ⟨rfl, h.symm⟩
      · exfalso
        rw [← Number.scan_iff] at hr
        exact absurd hr (by rw [show Number.scan [] = none from by decide]; simp)
    · rintro ⟨-, h⟩
      exact .inl ⟨rfl, h.symm⟩
  · unfold Internettool.Sized Number.strtoull
    cases hs : Number.scan t with
    | none =>
      constructor
      · rintro (⟨h, -⟩ | ⟨neg, n, hr, hv⟩)
        · exact absurd h ht
        · rw [← Number.scan_iff, hs] at hr; exact (nomatch hr)
      · rintro ⟨h, -⟩
        exact absurd h ht
    | some x =>
      obtain ⟨neg, n, r⟩ := x
      simp only []
      constructor
      · rintro (⟨h, -⟩ | ⟨neg', n', hr, hv⟩)
        · exact absurd h ht
        · rw [← Number.scan_iff, hs] at hr
          simp only [Option.some.injEq, Prod.mk.injEq] at hr
          obtain ⟨rfl, rfl, rfl⟩ := hr
          rw [hv]
          split <;> exact ⟨rfl, rfl⟩
      · intro h
        refine .inr ⟨neg, n, ?_, ?_⟩
        · rw [← Number.scan_iff, hs]
          by_cases hn : n < 2 ^ 64
          · rw [if_pos hn] at h; rw [show r = [] from h.1]
          · rw [if_neg hn] at h; rw [show r = [] from h.1]
        · by_cases hn : n < 2 ^ 64
          · rw [if_pos hn] at h ⊢; exact h.2.symm
          · rw [if_neg hn] at h ⊢; exact h.2.symm

theorem unsigned_lt (t : List Byte) : (Number.unsigned t).1 < 2 ^ 64 := by
  show (Number.strtoull t).1 < 2 ^ 64
  unfold Number.strtoull
  cases Number.scan t with
  | none => simp
  | some x =>
    simp only []
    repeat' split
    all_goals simp only []
    all_goals omega

theorem says_start : Says [] {} := ⟨by simp, by simp, by simp, by simp, rfl⟩

theorem says_step (b : List Opt) (c c' : Config) (o : Opt) (hc : Says b c) (h : option c o = .ok c') : Says (b ++ [o]) c' := by
  have hl : saysLength o = none → ((b ++ [o]).filterMap saysLength) = b.filterMap saysLength := by
    intro h
    rw [List.filterMap_append]
    simp [h]
  cases o with
  | length t =>
    unfold option at h
    by_cases ht : (Number.unsigned t).2.1 ≠ []
    · simp only [if_pos ht] at h; exact (nomatch h)
    · simp only [if_neg ht, Step.ok.injEq] at h
      subst h
      refine ⟨by simp [hc.esc], by simp [hc.nl], by simp [hc.hex], by simp [hc.tee], ?_⟩
      have : ((b ++ [Opt.length t]).filterMap saysLength).getLast? = some t := by
        rw [List.filterMap_append]; simp [saysLength]
      rw [this]
      show Internettool.Sized t _
      rw [BitVec.toNat_ofNat, Nat.mod_eq_of_lt (unsigned_lt t), sized_iff]
      exact ⟨by simpa using ht, rfl⟩
  | menu => exact (nomatch h)
  | esc =>
    simp only [option, Step.ok.injEq] at h; subst h
    exact ⟨by simp, by simp [hc.nl], by simp [hc.hex], by simp [hc.tee], by rw [hl rfl]; exact hc.length⟩
  | nl =>
    simp only [option, Step.ok.injEq] at h; subst h
    exact ⟨by simp [hc.esc], by simp, by simp [hc.hex], by simp [hc.tee], by rw [hl rfl]; exact hc.length⟩
  | tee =>
    simp only [option, Step.ok.injEq] at h; subst h
    exact ⟨by simp [hc.esc], by simp [hc.nl], by simp [hc.hex], by simp, by rw [hl rfl]; exact hc.length⟩
  | hex =>
    simp only [option, Step.ok.injEq] at h; subst h
    exact ⟨by simp [hc.esc], by simp [hc.nl], by simp, by simp [hc.tee], by rw [hl rfl]; exact hc.length⟩

theorem option_ends (c : Config) (o : Opt) (n : Nat) : option c o = .exits n ↔ Ends o n := by
  cases o with
  | length t =>
    unfold option
    by_cases ht : (Number.unsigned t).2.1 ≠ []
    · simp only [if_pos ht, Step.exits.injEq]
      constructor
      · rintro rfl
        refine .length ?_
        rintro ⟨v, hv⟩
        exact ht ((sized_iff t v).1 hv).1
      · intro h; cases h; rfl
    · simp only [if_neg ht]
      constructor
      · intro h; exact (nomatch h)
      · intro h
        cases h with
        | length h => exact absurd ⟨_, (sized_iff t _).2 ⟨by simpa using ht, rfl⟩⟩ h
  | menu =>
    simp only [option, Step.exits.injEq]
    exact ⟨by rintro rfl; exact .menu, by intro h; cases h; rfl⟩
  | _ => simp only [option]; exact ⟨fun h => (nomatch h), fun h => (nomatch h)⟩

/-- What the loop over the options comes to. -/
theorem options_from : ∀ (r b : List Opt) (c : Config), Says b c →
    (∃ c', options c r = .ok c' ∧ Says (b ++ r) c' ∧ ∀ o ∈ r, ∀ n, ¬ Ends o n) ∨ (∃ x o a n, r = x ++ o :: a ∧ Ends o n ∧ (∀ o ∈ x, ∀ n, ¬ Ends o n) ∧ options c r = .exits n)
  | [], b, c, hc => .inl ⟨c, rfl, by simpa using hc, by simp⟩
  | o :: r, b, c, hc => by
    unfold options
    cases ho : option c o with
    | exits n => exact .inr ⟨[], o, r, n, rfl, (option_ends c o n).1 ho, by simp, rfl⟩
    | ok c' =>
      have hne : ∀ n, ¬ Ends o n := fun n h => by rw [(option_ends c o n).2 h] at ho; exact (nomatch ho)
      simp only []
      rcases options_from r (b ++ [o]) c' (says_step b c c' o hc ho) with ⟨c'', h1, h2, h3⟩ | ⟨x, o', a, n, h1, h2, h3, h4⟩
      · refine .inl ⟨c'', h1, by simpa using h2, ?_⟩
        intro o' h
        rcases List.mem_cons.1 h with rfl | h
        · exact hne
        · exact h3 o' h
      · refine .inr ⟨o :: x, o', a, n, by rw [h1]; rfl, h2, ?_, h4⟩
        intro o'' h
        rcases List.mem_cons.1 h with rfl | h
        · exact hne
        · exact h3 o'' h

theorem special_named : ∀ c : Byte, 7#8 ≤ c ∧ c ≤ 13#8 → ∃ x, SPECIAL[(c - 7#8).toNat]? = some x ∧ (x, c) ∈ Escape.named := by
  decide +kernel

theorem digit_hex (n : Nat) (h : n < 16) : Escape.HexDigit (digit n) n := by
  unfold Escape.HexDigit digit
  rw [BitVec.toNat_ofNat]
  by_cases h10 : n < 10
  · rw [if_pos h10]; omega
  · rw [if_neg h10]; omega

theorem hexadecimal_denotes (c : Byte) (s r : List Byte) (d : Escape.Denotes s r) : Escape.Denotes (hexadecimal c ++ s) (c :: r) := by
  have hc := c.isLt
  have := Escape.Denotes.hex2 (digit_hex (c.toNat / 16) (by omega)) (digit_hex (c.toNat % 16) (by omega)) d
  rw [show BitVec.ofNat 8 (16 * (c.toNat / 16) + c.toNat % 16) = c from by
    apply BitVec.eq_of_toNat_eq
    rw [BitVec.toNat_ofNat]
    omega] at this
  exact this

/-- What is printed for a character, apart from a nul that is not in hexadecimal, before anything. -/
theorem token_denotes (o : Options) (c : Byte) (hn : ¬ (c = ch '\n' ∧ o.nl = true)) (h0 : c = 0#8 → o.hex = true) :
    ∃ i t, token o c = some (i, t) ∧ (∀ s r, Escape.Denotes s r → Escape.Denotes (t ++ s) (c :: r)) ∧ (t.head? = some c ∨ t.head? = some 0x5c#8) := by
  have hh : (hexadecimal c).head? = some 0x5c#8 := rfl
  unfold token
  by_cases a1 : c = 0#8 ∧ o.hex = true
  · rw [if_pos a1]; exact ⟨_, _, rfl, hexadecimal_denotes c, .inr hh⟩
  rw [if_neg a1]
  have hc0 : c ≠ 0#8 := fun h => a1 ⟨h, h0 h⟩
  rw [if_neg hc0, if_neg hn]
  by_cases a4 : (7#8 ≤ c ∧ c ≤ 13#8) ∧ o.hex = true
  · rw [if_pos a4]; exact ⟨_, _, rfl, hexadecimal_denotes c, .inr hh⟩
  rw [if_neg a4]
  by_cases a5 : 7#8 ≤ c ∧ c ≤ 13#8
  · rw [if_pos a5]
    obtain ⟨x, h1, h2⟩ := special_named c a5
    rw [h1]
    exact ⟨_, _, rfl, fun s r d => .letter h2 d, .inr rfl⟩
  rw [if_neg a5]
  by_cases a6 : c = ch '\\' ∧ o.hex = true
  · rw [if_pos a6]; exact ⟨_, _, rfl, hexadecimal_denotes c, .inr hh⟩
  rw [if_neg a6]
  by_cases a7 : c = ch '\\'
  · rw [if_pos a7]
    subst a7
    refine ⟨_, _, rfl, fun s r d => .itself (by decide) (by decide) (by decide) (by decide) ?_ (by decide +kernel) d, .inr rfl⟩
    intro v hv
    unfold Escape.OctDigit at hv
    have : (ch '\\').toNat = 92 := rfl
    omega
  rw [if_neg a7]
  by_cases a8 : (c = ch '"' ∨ c = ch '\'' ∨ c = ch '?') ∧ o.esc = true ∧ o.hex = true
  · rw [if_pos a8]; exact ⟨_, _, rfl, hexadecimal_denotes c, .inr hh⟩
  rw [if_neg a8]
  by_cases a9 : (c = ch '"' ∨ c = ch '\'' ∨ c = ch '?') ∧ o.esc = true
  · rw [if_pos a9]
    refine ⟨_, _, rfl, ?_, .inr rfl⟩
    intro s r d
    rcases a9.1 with rfl | rfl | rfl
    all_goals
      refine .itself (by decide) (by decide) (by decide) (by decide) ?_ (by decide +kernel) d
      intro v hv
      unfold Escape.OctDigit at hv
      have e1 : (ch '"').toNat = 34 := rfl
      have e2 : (ch '\'').toNat = 39 := rfl
      have e3 : (ch '?').toNat = 63 := rfl
      omega
  rw [if_neg a9]
  by_cases a10 : ch ' ' ≤ c ∧ c ≤ ch '~'
  · rw [if_pos a10]
    exact ⟨_, _, rfl, fun s r d => .plain hc0 a7 d, .inl rfl⟩
  rw [if_neg a10]
  exact ⟨_, _, rfl, hexadecimal_denotes c, .inr hh⟩

theorem token_nul (o : Options) (h : o.hex = false) : token o 0#8 = some (2#64, [0x5c#8, 0x30#8]) := by
  unfold token
  rw [if_neg (by simp [h]), if_pos rfl]
  rfl

theorem limit_zero (i : BitVec 64) (s : State) : limit 0#64 i s = ([], s) := by simp [limit]

/-- Without lines, what is printed denotes the input. -/
theorem emitAll_denotes (o : Options) (hl : o.length = 0#64) (hn : o.nl = false) : ∀ (input : List Byte) (s : State), o.hex = true ∨ Apart input →
    ∃ out, emitAll o input s = some (out, s) ∧ Escape.Denotes out input ∧ (∀ c cs, input = c :: cs → out.head? = some c ∨ out.head? = some 0x5c#8) ∧ (input = [] → out = [])
  | [], s, _ => ⟨[], rfl, .nil, by simp, fun _ => rfl⟩
  | c :: cs, s, hx => by
    have hx' : o.hex = true ∨ Apart cs := by
      rcases hx with h | h
      · exact .inl h
      · refine .inr fun p d q e => h (c :: p) d q (by rw [e]; rfl)
    obtain ⟨out, e, hd, hh, he⟩ := emitAll_denotes o hl hn cs s hx'
    by_cases hc : c = 0#8 ∧ o.hex = false
    · obtain ⟨rfl, hhex⟩ := hc
      have ha : Apart (0#8 :: cs) := by
        rcases hx with h | h
        · rw [h] at hhex; exact (nomatch hhex)
        · exact h
      refine ⟨0x5c#8 :: 0x30#8 :: out, ?_, ?_, fun c' cs' _ => .inr rfl, fun h => (nomatch h)⟩
      · simp only [emitAll, emit, token_nul o hhex, Option.map_some, Option.bind_some, hl, limit_zero, e]
        rfl
      · refine .oct1 (v1 := 0) ⟨by omega, rfl⟩ ?_ hd
        intro d hdh
        rintro ⟨v, hv⟩
        unfold Escape.OctDigit at hv
        cases cs with
        | nil => rw [he rfl] at hdh; exact (nomatch hdh)
        | cons c' cs' =>
          rcases hh c' cs' rfl with h | h
          · rw [h] at hdh
            have hcd : c' = d := Option.some.inj hdh
            exact ha [] d cs' (by rw [← hcd]; rfl) (by omega)
          · rw [h] at hdh
            cases hdh
            simp at hv
            omega
    · obtain ⟨i, t, ht, hden, hhead⟩ := token_denotes o c (by rw [hn]; simp) (by
        intro h
        cases hb : o.hex with
        | true => rfl
        | false => exact absurd ⟨h, hb⟩ hc)
      refine ⟨t ++ out, ?_, hden out cs hd, ?_, fun h => (nomatch h)⟩
      · simp only [emitAll, emit, ht, Option.map_some, Option.bind_some, hl, limit_zero, e]
        rfl
      · intro c' cs' h
        cases h
        cases t with
        | nil => rcases hhead with h | h <;> exact (nomatch h)
        | cons x t => exact hhead

end Diminuto.Phextool
