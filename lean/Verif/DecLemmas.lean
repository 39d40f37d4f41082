import Verif.DecSpec
import Verif.NumberProps

/-!
# Lemmas: the tool that converts numbers
-/

namespace Diminuto.Dec

open Diminuto.Number (Reads White IsDigit Denotes)

theorem printed_succ (base most n : Nat) : printed base (most + 1) n =
    if n < base then [BitVec.ofNat 8 (if n < 10 then 48 + n else 87 + n)] else printed base most (n / base) ++ [BitVec.ofNat 8 (if n % base < 10 then 48 + n % base else 87 + n % base)] := rfl

theorem character_digit {base v : Nat} (h : v < base) (hb : base ≤ 16) : IsDigit base (BitVec.ofNat 8 (if v < 10 then 48 + v else 87 + v)) v := by
  refine ⟨h, ?_⟩
  rw [BitVec.toNat_ofNat]
  split <;> omega

theorem printed_denotes {base : Nat} (hb : 2 ≤ base) (hb' : base ≤ 16) (most : Nat) : ∀ n, n < 2 ^ (most + 1) → Denotes base (printed base (most + 1) n) n := by
  induction most with
  | zero =>
    intro n h
    rw [printed_succ, if_pos (by omega)]
    exact .one (character_digit (by omega) hb')
  | succ most ih =>
    intro n h
    rw [printed_succ]
    by_cases hn : n < base
    · rw [if_pos hn]; exact .one (character_digit hn hb')
    · rw [if_neg hn]
      have h1 : n / base < 2 ^ (most + 1) := by
        have := Nat.div_le_div_left (a := n) hb (by decide)
        rw [Nat.pow_succ] at h
        omega
      have := Denotes.more (ih _ h1) (character_digit (Nat.mod_lt n (by omega)) hb')
      rw [Nat.mul_comm, Nat.div_add_mod] at this
      exact this

theorem printed_range {base : Nat} (hb : 2 ≤ base) (hb' : base ≤ 16) (most n : Nat) : ∀ b ∈ printed base most n, 48 ≤ b.toNat := by
  induction most generalizing n with
  | zero => intro b h; cases h
  | succ most ih =>
    have one : ∀ v, v < 16 → 48 ≤ (BitVec.ofNat 8 (if v < 10 then 48 + v else 87 + v)).toNat := by
      intro v hv; rw [BitVec.toNat_ofNat]; split <;> omega
    intro b h
    rw [printed_succ] at h
    split at h
    · cases List.mem_singleton.mp h; exact one n (by omega)
    · rcases List.mem_append.mp h with h | h
      · exact ih _ _ h
      · cases List.mem_singleton.mp h
        exact one _ (by have := Nat.mod_lt n (show 0 < base by omega); omega)

theorem printed_head {base : Nat} (hb : 2 ≤ base) (hb' : base ≤ 16) (most : Nat) : ∀ n, n < 2 ^ (most + 1) → n ≠ 0 → (printed base (most + 1) n).head? ≠ some 48#8 := by
  have one : ∀ v, v < 16 → v ≠ 0 → BitVec.ofNat 8 (if v < 10 then 48 + v else 87 + v) ≠ 48#8 := by
    intro v hv h0 e
    have := congrArg BitVec.toNat e
    rw [BitVec.toNat_ofNat] at this
    split at this <;> simp only [BitVec.toNat_ofNat] at this <;> omega
  induction most with
  | zero =>
    intro n h h0
    rw [printed_succ, if_pos (by omega)]
    intro e
    exact one n (by omega) h0 (Option.some.inj e)
  | succ most ih =>
    intro n h h0
    rw [printed_succ]
    by_cases hn : n < base
    · rw [if_pos hn]
      intro e
      exact one n (by omega) h0 (Option.some.inj e)
    · rw [if_neg hn]
      have h1 : n / base < 2 ^ (most + 1) := by
        have := Nat.div_le_div_left (a := n) hb (by decide)
        rw [Nat.pow_succ] at h
        omega
      have h2 : n / base ≠ 0 := by
        have : 0 < n / base := Nat.div_pos (by omega) (by omega)
        omega
      have := ih _ h1 h2
      have hne := Number.denotes_ne (printed_denotes hb hb' most _ h1)
      cases hp : printed base (most + 1) (n / base) with
      | nil => exact absurd hp hne
      | cons b l => rw [hp] at this; exact this

theorem printed_length {base : Nat} (hb : 8 ≤ base) (k : Nat) : ∀ (most n : Nat), n < 8 ^ (k + 1) → (printed base most n).length ≤ k + 1 := by
  induction k with
  | zero =>
    intro most n h
    cases most with
    | zero => simp [printed]
    | succ most => rw [printed_succ, if_pos (by omega)]; simp
  | succ k ih =>
    intro most n h
    cases most with
    | zero => simp [printed]
    | succ most =>
      rw [printed_succ]
      split
      · simp
      · rw [List.length_append]
        have h1 : n / base < 8 ^ (k + 1) := by
          have := Nat.div_le_div_left (a := n) hb (by decide)
          rw [Nat.pow_succ] at h
          omega
        have := ih most _ h1
        simp only [List.length_singleton]
        omega

theorem ends_newline {base : Nat} : Number.Ends base [10#8] := by
  intro b t v h
  cases h
  intro hd
  rcases hd with ⟨-, ⟨-, h⟩ | ⟨-, h | h⟩⟩ <;> (have : (10#8).toNat = 10 := rfl) <;> omega

theorem apart_newline (s : List Byte) : Number.Apart s [10#8] := by
  intro _ x y t v h
  cases h

theorem printed_numeral (n : Nat) (h : n < 2 ^ 64) : ∃ base, Number.Numeral (printed 10 64 n) base n := by
  by_cases h0 : n = 0
  · subst h0; exact ⟨8, .zero⟩
  · exact ⟨10, .decimal (printed_denotes (by decide) (by decide) 63 n h) (printed_head (by decide) (by decide) 63 n h h0)⟩

theorem short_eq (little : Bool) (v : BitVec 64) : short little v = meaning little .ntohs v.toNat := by
  unfold short meaning reversed16
  cases little
  · simp [BitVec.toNat_setWidth]
  · simp only [if_true, BitVec.toNat_append, BitVec.extractLsb'_toNat, BitVec.toNat_setWidth]
    rw [← Nat.shiftLeft_add_eq_or_of_lt (by omega), Nat.shiftLeft_eq, Nat.shiftRight_eq_div_pow, Nat.shiftRight_eq_div_pow]
    omega

theorem long_eq (little : Bool) (v : BitVec 64) : long little v = meaning little .ntohl v.toNat := by
  unfold long meaning reversed32
  cases little
  · simp [BitVec.toNat_setWidth]
  · simp only [if_true, BitVec.toNat_append, BitVec.extractLsb'_toNat, BitVec.toNat_setWidth, Nat.shiftRight_eq_div_pow]
    rw [← Nat.shiftLeft_add_eq_or_of_lt (a := v.toNat % 2 ^ 32 / 2 ^ 16 % 2 ^ 8) (by omega), ← Nat.shiftLeft_add_eq_or_of_lt (a := v.toNat % 2 ^ 32 / 2 ^ 8 % 2 ^ 8) (by rw [Nat.shiftLeft_eq]; omega),
      ← Nat.shiftLeft_add_eq_or_of_lt (a := v.toNat % 2 ^ 32 / 2 ^ 0 % 2 ^ 8) (by rw [Nat.shiftLeft_eq, Nat.shiftLeft_eq]; omega)]
    simp only [Nat.shiftLeft_eq]
    omega

theorem meaning_lt (little : Bool) (c : Command) (n : Nat) (h : n < 2 ^ 64) : meaning little c n < 2 ^ 64 := by
  unfold meaning reversed16 reversed32
  cases c <;> cases little <;> simp <;> omega

/-- The text of a line, without its newline. -/
theorem line_spec (little : Bool) (c : Command) (v : BitVec 64) : ∃ t base, line little c v = t ++ [10#8] ∧ Number.Numeral t base (meaning little c v.toNat) ∧ t.length ≤ 62 ∧ (∀ b ∈ t, 48 ≤ b.toNat) ∧
    (c = .oct → ∃ u, t = 48#8 :: u ∧ Denotes 8 u v.toNat) ∧ (c = .hex → ∃ u, t = 48#8 :: 120#8 :: u ∧ Denotes 16 u v.toNat) ∧ (c ≠ .oct → c ≠ .hex → Denotes 10 t (meaning little c v.toNat)) := by
  have hv := v.isLt
  have hl : ∀ base n, 8 ≤ base → n < 2 ^ 64 → (printed base 64 n).length ≤ 22 := fun base n hb hn => printed_length hb 21 64 n (by omega)
  have h10 : ∀ n, n < 2 ^ 64 → Denotes 10 (printed 10 64 n) n := fun n hn => printed_denotes (by decide) (by decide) 63 n hn
  have hd : ∀ c n, n = meaning little c v.toNat → line little c v = printed 10 64 n ++ [10#8] → c ≠ .oct → c ≠ .hex → ∃ t base, line little c v = t ++ [10#8] ∧ Number.Numeral t base (meaning little c v.toNat) ∧ t.length ≤ 62 ∧
      (∀ b ∈ t, 48 ≤ b.toNat) ∧ (c = .oct → ∃ u, t = 48#8 :: u ∧ Denotes 8 u v.toNat) ∧ (c = .hex → ∃ u, t = 48#8 :: 120#8 :: u ∧ Denotes 16 u v.toNat) ∧
      (c ≠ .oct → c ≠ .hex → Denotes 10 t (meaning little c v.toNat)) := by
    intro c n hn hline ho hx
    have hn' : n < 2 ^ 64 := by rw [hn]; exact meaning_lt little c _ hv
    obtain ⟨base, hb⟩ := printed_numeral n hn'
    have := hl 10 n (by decide) hn'
    rw [hn] at hb
    exact ⟨printed 10 64 n, base, hline, by rw [hn]; exact hb, by omega, printed_range (by decide) (by decide) 64 n, fun h => absurd h ho, fun h => absurd h hx, fun _ _ => by rw [← hn]; exact h10 n hn'⟩
  cases c with
  | oct =>
    have := hl 8 v.toNat (by decide) hv
    refine ⟨48#8 :: printed 8 64 v.toNat, 8, rfl, .octal (printed_denotes (by decide) (by decide) 63 _ hv), by simp only [List.length_cons]; omega, ?_, fun _ => ⟨_, rfl, printed_denotes (by decide) (by decide) 63 _ hv⟩, (fun h => by cases h), fun h => absurd rfl h⟩
    intro b hb
    rcases List.mem_cons.mp hb with rfl | hb
    · decide
    · exact printed_range (by decide) (by decide) 64 _ b hb
  | hex =>
    have := hl 16 v.toNat (by decide) hv
    refine ⟨48#8 :: 120#8 :: printed 16 64 v.toNat, 16, rfl, .hexadecimal (.inl rfl) (printed_denotes (by decide) (by decide) 63 _ hv), by simp only [List.length_cons]; omega, ?_, (fun h => by cases h),
      fun _ => ⟨_, rfl, printed_denotes (by decide) (by decide) 63 _ hv⟩, fun _ h => absurd rfl h⟩
    intro b hb
    rcases List.mem_cons.mp hb with rfl | hb
    · decide
    · rcases List.mem_cons.mp hb with rfl | hb
      · decide
      · exact printed_range (by decide) (by decide) 64 _ b hb
  | dec => exact hd _ _ rfl rfl (by decide) (by decide)
  | ntohs => exact hd _ _ (short_eq little v) rfl (by decide) (by decide)
  | htons => exact hd _ _ (short_eq little v) rfl (by decide) (by decide)
  | ntohl => exact hd _ _ (long_eq little v) rfl (by decide) (by decide)
  | htonl => exact hd _ _ (long_eq little v) rfl (by decide) (by decide)

theorem unsigned_lt (s : List Byte) : (Number.unsigned s).1 < 2 ^ 64 := by
  show (Number.strtoull s).1 < _
  unfold Number.strtoull
  split
  · exact Nat.pow_pos (by decide)
  · split
    · split <;> simp only [] <;> omega
    · simp only []; omega

/-- What a run that succeeds prints. -/
theorem loop_zero (little : Bool) (c : Command) (texts : List (List Byte)) : ∀ (start out : List Byte), loop little c texts start = .exit 0 out →
    out = start ++ (texts.map fun s => line little c (BitVec.ofNat 64 (Number.unsigned s).1)).flatten ∧ ∀ s ∈ texts, accepted (Number.unsigned s).2.1 = some true := by
  induction texts with
  | nil => intro start out h; cases h; exact ⟨by simp, by simp⟩
  | cons s r ih =>
    intro start out h
    rw [loop] at h
    split at h
    · cases h
    · cases h
    · rename_i ha
      obtain ⟨h1, h2⟩ := ih _ _ h
      refine ⟨by rw [h1]; simp, fun x hx => ?_⟩
      rcases List.mem_cons.mp hx with rfl | hx
      · exact ha
      · exact h2 x hx

theorem loop_accepts (little : Bool) (c : Command) (texts : List (List Byte)) : ∀ start, (∀ s ∈ texts, accepted (Number.unsigned s).2.1 = some true) →
    loop little c texts start = .exit 0 (start ++ (texts.map fun s => line little c (BitVec.ofNat 64 (Number.unsigned s).1)).flatten) := by
  induction texts with
  | nil => intro start _; simp [loop]
  | cons s r ih =>
    intro start h
    rw [loop, h s (List.mem_cons_self ..)]
    simp only []
    rw [ih _ fun x hx => h x (List.mem_cons_of_mem _ hx)]
    simp

theorem getline_newline (t r : List Byte) (hn : ∀ b ∈ t, b ≠ 10#8) : ∀ n, t.length < n → getline n (t ++ (10#8 :: r)) = (t ++ [10#8], r) := by
  induction t with
  | nil =>
    intro n h
    cases n with
    | zero => cases h
    | succ n => rfl
  | cons b t ih =>
    intro n h
    cases n with
    | zero => cases h
    | succ n =>
      rw [List.cons_append, getline, if_neg (hn b (List.mem_cons_self ..)), ih (fun x hx => hn x (List.mem_cons_of_mem _ hx)) n (by simpa using h)]
      rfl

theorem takeWhile_all {α : Type} (p : α → Bool) (l : List α) (h : ∀ x ∈ l, p x = true) : l.takeWhile p = l := by
  induction l with
  | nil => rfl
  | cons b l ih => rw [List.takeWhile_cons, if_pos (h b (List.mem_cons_self ..)), ih fun x hx => h x (List.mem_cons_of_mem _ hx)]

theorem strings_lines (ts : List (List Byte)) (h : ∀ t ∈ ts, t.length ≤ 62 ∧ ∀ b ∈ t, 48 ≤ b.toNat) : ∀ n, (ts.map (· ++ [10#8])).flatten.length ≤ n →
    strings n (ts.map (· ++ [10#8])).flatten = ts.map (· ++ [10#8]) := by
  induction ts with
  | nil => intro n _; cases n <;> rfl
  | cons t ts ih =>
    intro n hn
    obtain ⟨h1, h2⟩ := h t (List.mem_cons_self ..)
    have hg := getline_newline t (ts.map (· ++ [10#8])).flatten (fun b hb e => by
      have := h2 b hb; rw [e] at this; revert this; decide) 63 (by omega)
    have hsh : ((t :: ts).map (· ++ [10#8])).flatten = t ++ (10#8 :: (ts.map (· ++ [10#8])).flatten) := by simp
    rw [hsh] at hn ⊢
    rw [List.length_append, List.length_cons] at hn
    cases n with
    | zero => omega
    | succ n =>
      have hs : strings (n + 1) (t ++ (10#8 :: (ts.map (· ++ [10#8])).flatten)) = (getline 63 (t ++ (10#8 :: (ts.map (· ++ [10#8])).flatten))).1.takeWhile (· ≠ 0#8) ::
          strings n (getline 63 (t ++ (10#8 :: (ts.map (· ++ [10#8])).flatten))).2 := by
        cases t <;> rfl
      rw [hs, hg, ih (fun x hx => h x (List.mem_cons_of_mem _ hx)) n (by omega)]
      simp only [List.map_cons]
      congr 1
      apply takeWhile_all
      intro b hb
      rcases List.mem_append.mp hb with hb | hb
      · have := h2 b hb
        simp only [ne_eq, decide_eq_true_eq]
        rintro rfl
        revert this
        decide
      · cases List.mem_singleton.mp hb; decide

theorem main_args (little : Bool) (argv0 : List Byte) (args : List (List Byte)) (input : List Byte) (ha : args ≠ []) (hd : args ≠ [ascii "-"]) : main little argv0 args input = loop little (command argv0) args [] := by
  unfold main
  have h : ¬ (args = [] ∨ args = [ascii "-"]) := fun h => h.elim ha hd
  simp only [if_neg h, if_neg ha]

theorem main_file (little : Bool) (argv0 input : List Byte) : main little argv0 [] input = if strings input.length input = [] then .exit 2 [] else loop little (command argv0) (strings input.length input) [] := by
  unfold main
  simp only [true_or, if_true]

theorem reversed16_twice (n : Nat) (h : n < 2 ^ 16) : reversed16 (reversed16 n) = n := by
  unfold reversed16
  have h1 : (n % 256 * 256 + n / 256 % 256) / 256 = n % 256 := by omega
  have h2 : (n % 256 * 256 + n / 256 % 256) % 256 = n / 256 % 256 := by omega
  rw [h1, h2]
  omega

theorem bytes_four (a b c d : Nat) (ha : a < 256) (hb : b < 256) (hc : c < 256) (hd : d < 256) : (a * 16777216 + b * 65536 + c * 256 + d) % 256 = d ∧ (a * 16777216 + b * 65536 + c * 256 + d) / 256 % 256 = c ∧
    (a * 16777216 + b * 65536 + c * 256 + d) / 65536 % 256 = b ∧ (a * 16777216 + b * 65536 + c * 256 + d) / 16777216 % 256 = a := by
  have h1 : (a * 16777216 + b * 65536 + c * 256 + d) / 256 = a * 65536 + b * 256 + c := by omega
  have h2 : (a * 16777216 + b * 65536 + c * 256 + d) / 65536 = a * 256 + b := by omega
  have h3 : (a * 16777216 + b * 65536 + c * 256 + d) / 16777216 = a := by omega
  rw [h1, h2, h3]
  omega

theorem reversed32_twice (n : Nat) (h : n < 2 ^ 32) : reversed32 (reversed32 n) = n := by
  unfold reversed32
  obtain ⟨a, ha⟩ : ∃ a, a = n % 256 := ⟨_, rfl⟩
  obtain ⟨b, hb⟩ : ∃ b, b = n / 256 % 256 := ⟨_, rfl⟩
  obtain ⟨c, hc⟩ : ∃ c, c = n / 65536 % 256 := ⟨_, rfl⟩
  obtain ⟨d, hd⟩ : ∃ d, d = n / 16777216 % 256 := ⟨_, rfl⟩
  have e : n = a + 256 * b + 65536 * c + 16777216 * d := by omega
  rw [← ha, ← hb, ← hc, ← hd]
  obtain ⟨h1, h2, h3, h4⟩ := bytes_four a b c d (by omega) (by omega) (by omega) (by omega)
  rw [h1, h2, h3, h4, e]
  omega

end Diminuto.Dec
