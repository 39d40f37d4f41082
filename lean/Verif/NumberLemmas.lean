import Verif.NumberSpec

/-!
# Lemmas: the conversion of numbers and ports
-/

namespace Diminuto.Number

theorem le_nat (a b : Byte) : (decide (a ≤ b)) = decide (a.toNat ≤ b.toNat) := rfl

theorem digit_iff (b : Byte) (v base : Nat) (hb : base ≤ 36) : IsDigit base b v ↔ digit b = some v ∧ v < base := by
  unfold IsDigit digit
  have h48 : (48#8).toNat = 48 := rfl
  have h57 : (57#8).toNat = 57 := rfl
  have h97 : (97#8).toNat = 97 := rfl
  have h122 : (122#8).toNat = 122 := rfl
  have h65 : (65#8).toNat = 65 := rfl
  have h90 : (90#8).toNat = 90 := rfl
  simp only [le_nat, h48, h57, h97, h122, h65, h90, Bool.and_eq_true, decide_eq_true_eq]
  split
  · simp only [Option.some.injEq]; omega
  · split
    · simp only [Option.some.injEq]; omega
    · split
      · simp only [Option.some.injEq]; omega
      · simp only [reduceCtorEq, false_and, iff_false]; omega

theorem digits_step {base : Nat} (hb : base ≤ 36) {b : Byte} {v : Nat} (h : IsDigit base b v) (c n : Nat) (r : List Byte) :
    digits base c n (b :: r) = digits base (c + 1) (n * base + v) r := by
  rw [digit_iff b v base hb] at h
  simp only [digits, h.1, h.2, if_true]

theorem digits_end {base : Nat} (hb : base ≤ 36) {r : List Byte} (h : Ends base r) (c n : Nat) : digits base c n r = (c, n, r) := by
  cases r with
  | nil => rfl
  | cons b t =>
    cases hd : digit b with
    | none => simp only [digits, hd]
    | some d =>
      have : ¬ d < base := fun hl => h b t d rfl ((digit_iff b d base hb).2 ⟨hd, hl⟩)
      simp only [digits, hd, if_neg this]

theorem digits_denotes {base : Nat} (hb : base ≤ 36) {s : List Byte} {n : Nat} (h : Denotes base s n) :
    ∀ (c v : Nat) (r : List Byte), digits base c v (s ++ r) = digits base (c + s.length) (v * base ^ s.length + n) r := by
  induction h with
  | one h =>
    intro c v r
    rw [List.singleton_append, digits_step hb h]
    simp
  | @more s b n d _ h ih =>
    intro c v r
    rw [List.append_assoc, ih, List.singleton_append, digits_step hb h]
    simp only [List.length_append, List.length_singleton, Nat.pow_succ, Nat.add_mul, Nat.mul_assoc, Nat.add_assoc]

theorem denotes_ne {base : Nat} {s : List Byte} {n : Nat} (h : Denotes base s n) : s ≠ [] := by
  cases h <;> simp

theorem denotes_cons {base : Nat} {b : Byte} {v : Nat} (hb : IsDigit base b v) {s : List Byte} {n : Nat} (h : Denotes base s n) :
    Denotes base (b :: s) (v * base ^ s.length + n) := by
  induction h with
  | @one b' v' h =>
    have := Denotes.more (.one hb) h
    simpa using this
  | @more s b' n d _ h ih =>
    have := Denotes.more ih h
    have e : (v * base ^ s.length + n) * base + d = v * base ^ (s ++ [b']).length + (n * base + d) := by
      simp only [List.length_append, List.length_singleton, Nat.pow_succ, Nat.add_mul, Nat.mul_assoc, Nat.add_assoc]
    rw [← e]
    exact this

/-- What the loop over the digits finds. -/
theorem digits_spec {base : Nat} (hb : base ≤ 36) (s : List Byte) : ∀ (c v c' v' : Nat) (r : List Byte), digits base c v s = (c', v', r) →
    Ends base r ∧ ∃ t, s = t ++ r ∧ ((t = [] ∧ c' = c ∧ v' = v) ∨ ∃ n, Denotes base t n ∧ v' = v * base ^ t.length + n ∧ c' = c + t.length) := by
  induction s with
  | nil =>
    intro c v c' v' r h
    cases h
    exact ⟨(fun b t v h => by cases h), [], rfl, .inl ⟨rfl, rfl, rfl⟩⟩
  | cons b s ih =>
    intro c v c' v' r h
    cases hd : digit b with
    | none =>
      simp only [digits, hd] at h
      cases h
      refine ⟨?_, [], rfl, .inl ⟨rfl, rfl, rfl⟩⟩
      intro b' t v' e hi
      cases e
      rw [digit_iff _ _ _ hb, hd] at hi
      cases hi.1
    | some d =>
      by_cases hl : d < base
      · have hi := (digit_iff b d base hb).2 ⟨hd, hl⟩
        rw [digits_step hb hi] at h
        obtain ⟨he, t, rfl, ht⟩ := ih _ _ _ _ _ h
        refine ⟨he, b :: t, rfl, .inr ?_⟩
        rcases ht with ⟨rfl, rfl, rfl⟩ | ⟨n, hn, rfl, rfl⟩
        · exact ⟨d, .one hi, by simp, rfl⟩
        · refine ⟨_, denotes_cons hi hn, ?_, ?_⟩
          · rw [List.length_cons, Nat.pow_succ, Nat.add_mul, Nat.mul_assoc, Nat.mul_comm base, Nat.add_assoc]
          · rw [List.length_cons]; omega
      · simp only [digits, hd, if_neg hl] at h
        cases h
        refine ⟨?_, [], rfl, .inl ⟨rfl, rfl, rfl⟩⟩
        intro b' t v' e hi
        cases e
        rw [digit_iff _ _ _ hb, hd] at hi
        cases hi.1
        exact hl hi.2

theorem white_iff (b : Byte) : isSpace b = true ↔ White b := by
  unfold isSpace White
  have h9 : (9#8).toNat = 9 := rfl
  have h13 : (13#8).toNat = 13 := rfl
  simp only [le_nat, h9, h13, Bool.or_eq_true, Bool.and_eq_true, decide_eq_true_eq, ← BitVec.toNat_inj]
  rfl

theorem ends_of (base : Nat) (b : Byte) (t : List Byte) (h : ∀ v, ¬ IsDigit base b v) : Ends base (b :: t) := by
  intro b' t' v e
  cases e
  exact h v

/-- A numeral is read. -/
theorem magnitude_numeral {s r : List Byte} {base n : Nat} (h : Numeral s base n) (he : Ends base r) (ha : Apart s r) : magnitude (s ++ r) = some (n, r) := by
  cases h with
  | @hexadecimal x s n hx hd =>
    unfold magnitude
    have h1 : (48#8 :: x :: s ++ r)[1]? = some x := rfl
    rw [if_pos (show (48#8 :: x :: s ++ r).head? = some 48#8 from rfl), h1]
    have h2 : (some x = some 120#8 ∨ some x = some 88#8) := by rcases hx with h | h <;> simp [h]
    rw [if_pos h2]
    have h3 : (48#8 :: x :: s ++ r).drop 2 = s ++ r := rfl
    rw [h3, digits_denotes (by decide) hd, digits_end (by decide) he]
    have : s.length ≠ 0 := by intro h; exact denotes_ne hd (List.length_eq_zero_iff.1 h)
    simp [this]
  | @octal s n hd =>
    obtain ⟨b, s', rfl⟩ : ∃ b s', s = b :: s' := by
      cases s with
      | nil => exact absurd rfl (denotes_ne hd)
      | cons b s' => exact ⟨b, s', rfl⟩
    have hb : ∃ v, IsDigit 8 b v := by
      have : ∀ {s n}, Denotes 8 s n → ∀ b s', s = b :: s' → ∃ v, IsDigit 8 b v := by
        intro s n h
        induction h with
        | one h => intro b s' e; cases e; exact ⟨_, h⟩
        | @more s _ _ _ h1 _ ih =>
          intro b s' e
          cases s with
          | nil => exact absurd rfl (denotes_ne h1)
          | cons c s => cases e; exact ih _ _ rfl
      exact this hd _ _ rfl
    obtain ⟨v, hv⟩ := hb
    unfold magnitude
    have h1 : (48#8 :: b :: s' ++ r)[1]? = some b := rfl
    rw [if_pos (show (48#8 :: b :: s' ++ r).head? = some 48#8 from rfl), h1]
    have h2 : ¬ (some b = some 120#8 ∨ some b = some 88#8) := by
      intro h
      unfold IsDigit at hv
      rcases h with h | h <;> cases h
      · have : (120#8).toNat = 120 := rfl
        omega
      · have : (88#8).toNat = 88 := rfl
        omega
    rw [if_neg h2]
    have h0 : IsDigit 8 48#8 0 := ⟨by decide, .inl ⟨by decide, rfl⟩⟩
    have hd' := denotes_cons h0 hd
    rw [digits_denotes (by decide) hd', digits_end (by decide) he]
    simp
  | zero =>
    unfold magnitude
    rw [if_pos (show ([48#8] ++ r).head? = some 48#8 from rfl)]
    have h0 : IsDigit 8 48#8 0 := ⟨by decide, .inl ⟨by decide, rfl⟩⟩
    have h8 : digits 8 0 0 ([48#8] ++ r) = (1, 0, r) := by
      rw [List.singleton_append, digits_step (by decide) h0, digits_end (by decide) he]
    split
    · rename_i hx
      have h2 : ([48#8] ++ r).drop 2 = r.tail := by cases r <;> rfl
      have h1 : ([48#8] ++ r).drop 1 = r := rfl
      have h3 : ([48#8] ++ r)[1]? = r.head? := by cases r <;> rfl
      rw [h3] at hx
      have : digits 16 0 0 r.tail = (0, 0, r.tail) := by
        refine digits_end (by decide) ?_ _ _
        intro y t v e
        cases r with
        | nil => cases e
        | cons x r =>
          have e : r = y :: t := e
          subst e
          refine ha rfl x y t v rfl ?_
          rcases hx with h | h
          · left; simpa using h
          · right; simpa using h
      rw [h2, h1, this]
      rfl
    · rw [h8]
  | decimal hd hz =>
    unfold magnitude
    have h1 : (s ++ r).head? ≠ some 48#8 := by
      cases s with
      | nil => exact absurd rfl (denotes_ne hd)
      | cons b s => exact hz
    rw [if_neg h1, digits_denotes (by decide) hd, digits_end (by decide) he]
    have : s.length ≠ 0 := by intro h; exact denotes_ne hd (List.length_eq_zero_iff.1 h)
    simp [this]

/-- What is read is a numeral. -/
theorem magnitude_spec {u r : List Byte} {n : Nat} (h : magnitude u = some (n, r)) : ∃ s base, u = s ++ r ∧ Numeral s base n ∧ Ends base r ∧ Apart s r := by
  unfold magnitude at h
  split at h
  · rename_i h0
    cases u with
    | nil => cases h0
    | cons b u =>
      cases h0
      split at h
      · rename_i hx
        cases u with
        | nil => rcases hx with h | h <;> cases h
        | cons x v =>
          have hx : x = 120#8 ∨ x = 88#8 := by
            rcases hx with h | h
            · left; simpa using h
            · right; simpa using h
          have e2 : (48#8 :: x :: v).drop 2 = v := rfl
          have e1 : (48#8 :: x :: v).drop 1 = x :: v := rfl
          rw [e2, e1] at h
          obtain ⟨he, t, ht, hcase⟩ := digits_spec (base := 16) (by decide) v 0 0 _ _ _ rfl
          split at h
          · rename_i hc
            cases h
            refine ⟨[48#8], 8, rfl, .zero, ends_of _ _ _ ?_, ?_⟩
            · intro d hd
              unfold IsDigit at hd
              have e1 : (120#8).toNat = 120 := rfl
              have e2 : (88#8).toNat = 88 := rfl
              rcases hx with h | h <;> subst h <;> omega
            · intro _ x' y t' d e _ hd
              cases e
              rcases hcase with ⟨rfl, _, _⟩ | ⟨n, hn, _, hl⟩
              · exact he y t' d ht.symm hd
              · rw [hc] at hl
                exact denotes_ne hn (List.length_eq_zero_iff.1 (by omega))
          · rename_i hc
            have hh : digits 16 0 0 v = ((digits 16 0 0 v).1, n, r) := by rw [← Option.some.inj h]
            obtain ⟨he, t, ht, hcase⟩ := digits_spec (base := 16) (by decide) v 0 0 _ _ _ hh
            rcases hcase with ⟨_, hc', _⟩ | ⟨n, hn, hv, _⟩
            · exact absurd hc' hc
            · refine ⟨48#8 :: x :: t, 16, by rw [List.cons_append, List.cons_append, ← ht], ?_, he, ?_⟩
              · rw [hv]
                simp only [Nat.zero_mul, Nat.zero_add]
                exact .hexadecimal hx hn
              · intro e; cases e
      · rename_i hx
        have hh : digits 8 0 0 (48#8 :: u) = ((digits 8 0 0 (48#8 :: u)).1, n, r) := by rw [← Option.some.inj h]
        obtain ⟨he, t, ht, hcase⟩ := digits_spec (base := 8) (by decide) (48#8 :: u) 0 0 _ _ _ hh
        have h0 : IsDigit 8 48#8 0 := ⟨by decide, .inl ⟨by decide, rfl⟩⟩
        cases t with
        | nil => exact absurd h0 (he _ _ _ ht.symm)
        | cons b t =>
          rw [List.cons_append] at ht
          injection ht with hb ht
          subst hb
          refine ⟨48#8 :: t, 8, by rw [List.cons_append, ← ht], ?_, he, ?_⟩
          · rcases hcase with ⟨h, _⟩ | ⟨n, hn, hv, _⟩
            · cases h
            · rw [hv]
              simp only [Nat.zero_mul, Nat.zero_add]
              cases t with
              | nil =>
                have : n = 0 := by
                  have hn' := digits_denotes (base := 8) (by decide) hn 0 0 []
                  rw [List.append_nil, digits_step (by decide) h0] at hn'
                  simp [digits] at hn'
                  exact hn'.symm
                rw [this]
                exact .zero
              | cons c t =>
                refine .octal ?_
                have hn' := digits_denotes (base := 8) (by decide) hn 0 0 []
                rw [List.append_nil, digits_step (by decide) h0] at hn'
                replace hn' : digits 8 1 0 (c :: t) = ((48#8 :: c :: t).length, n, []) := hn'.trans (by simp [digits])
                have hshift : ∀ (s : List Byte) (c v : Nat), (digits 8 (c + 1) v s) = ((digits 8 c v s).1 + 1, (digits 8 c v s).2) := by
                  intro s
                  induction s with
                  | nil => intro c v; rfl
                  | cons b s ih =>
                    intro c v
                    simp only [digits]
                    split
                    · rfl
                    · split
                      · exact ih _ _
                      · rfl
                have hs := hshift (c :: t) 0 0
                rw [Nat.zero_add] at hs
                rw [hn'] at hs
                have hs2 := congrArg Prod.snd hs
                simp only [] at hs2
                have hh2 : digits 8 0 0 (c :: t) = ((digits 8 0 0 (c :: t)).1, n, []) := by rw [hs2]
                obtain ⟨he', t', ht', hcase'⟩ := digits_spec (base := 8) (by decide) (c :: t) 0 0 _ _ _ hh2
                simp only [List.append_nil] at ht'
                subst ht'
                rcases hcase' with ⟨h, _⟩ | ⟨m, hm, hv', _⟩
                · cases h
                · simp only [Nat.zero_mul, Nat.zero_add] at hv'
                  rw [hv']
                  exact hm
          · intro e x y t' d e2 hx' hd
            cases e
            rw [List.nil_append] at ht
            rw [← ht] at e2
            subst e2
            apply hx
            rcases hx' with h | h
            · left; rw [h]; rfl
            · right; rw [h]; rfl
  · rename_i h0
    split at h
    · cases h
    · rename_i hc
      have hh : digits 10 0 0 u = ((digits 10 0 0 u).1, n, r) := by rw [← Option.some.inj h]
      obtain ⟨he, t, ht, hcase⟩ := digits_spec (base := 10) (by decide) u 0 0 _ _ _ hh
      rcases hcase with ⟨_, hc', _⟩ | ⟨n, hn, hv, _⟩
      · exact absurd hc' hc
      · refine ⟨t, 10, ht, ?_, he, ?_⟩
        · rw [hv]
          simp only [Nat.zero_mul, Nat.zero_add]
          refine .decimal hn ?_
          intro h
          apply h0
          rw [ht]
          cases t with
          | nil => cases h
          | cons b t => exact h
        · intro e
          subst e
          exfalso
          apply h0
          rw [ht]
          rfl

theorem denotes_head {base : Nat} {s : List Byte} {n : Nat} (h : Denotes base s n) : ∃ b s' v, s = b :: s' ∧ IsDigit base b v := by
  induction h with
  | @one b v h => exact ⟨b, [], v, rfl, h⟩
  | more _ _ ih =>
    obtain ⟨b, s', v, rfl, hv⟩ := ih
    exact ⟨b, _, v, rfl, hv⟩

theorem numeral_head {s : List Byte} {base n : Nat} (h : Numeral s base n) : ∃ b s', s = b :: s' ∧ 48 ≤ b.toNat ∧ b.toNat ≤ 57 := by
  cases h with
  | hexadecimal _ _ => exact ⟨_, _, rfl, by decide, by decide⟩
  | octal _ => exact ⟨_, _, rfl, by decide, by decide⟩
  | zero => exact ⟨_, _, rfl, by decide, by decide⟩
  | decimal hd _ =>
    obtain ⟨b, s', v, rfl, hv⟩ := denotes_head hd
    unfold IsDigit at hv
    exact ⟨b, s', rfl, by omega, by omega⟩

theorem drop_white {w x : List Byte} (hw : ∀ b ∈ w, White b) (hx : ∀ b t, x = b :: t → ¬ White b) : (w ++ x).dropWhile isSpace = x := by
  induction w with
  | nil =>
    cases x with
    | nil => rfl
    | cons b t =>
      have : isSpace b = false := by
        cases h : isSpace b with
        | false => rfl
        | true => exact absurd ((white_iff b).1 h) (hx b t rfl)
      show (b :: t).dropWhile isSpace = _
      rw [List.dropWhile_cons, this]
      rfl
  | cons a w ih =>
    have : isSpace a = true := (white_iff a).2 (hw a List.mem_cons_self)
    rw [List.cons_append, List.dropWhile_cons, this, if_pos rfl]
    exact ih fun b hb => hw b (List.mem_cons_of_mem _ hb)

theorem scan_iff (s : List Byte) (negative : Bool) (n : Nat) (r : List Byte) : scan s = some (negative, n, r) ↔ Reads s negative n r := by
  constructor
  · intro h
    unfold scan at h
    cases hm : magnitude (sign (s.dropWhile isSpace)).2 with
    | none => rw [hm] at h; cases h
    | some m =>
      rw [hm] at h
      injection h with h
      injection h with h1 h2
      subst h2
      obtain ⟨t, base, ht, hn, he, ha⟩ := magnitude_spec hm
      refine ⟨s.takeWhile isSpace, ?_⟩
      have hs : s = s.takeWhile isSpace ++ s.dropWhile isSpace := List.takeWhile_append_dropWhile.symm
      have hw : ∀ b ∈ s.takeWhile isSpace, White b := by
        intro b hb
        exact (white_iff b).1 (List.all_eq_true.1 List.all_takeWhile b hb)
      generalize hd : s.dropWhile isSpace = d at *
      unfold sign at h1 ht
      split at h1
      · rename_i hh
        rw [if_pos hh] at ht
        cases d with
        | nil => cases hh
        | cons b d =>
          cases hh
          have ht : d = t ++ r := ht
          subst ht
          subst h1
          exact ⟨[45#8], t, base, hs, hw, .minus, hn, he, ha⟩
      · rename_i hh
        rw [if_neg hh] at ht
        split at h1
        · rename_i hh2
          rw [if_pos hh2] at ht
          cases d with
          | nil => cases hh2
          | cons b d =>
            cases hh2
            have ht : d = t ++ r := ht
            subst ht
            subst h1
            exact ⟨[43#8], t, base, hs, hw, .plus, hn, he, ha⟩
        · rename_i hh2
          rw [if_neg hh2] at ht
          have ht : d = t ++ r := ht
          subst ht
          subst h1
          exact ⟨[], t, base, hs, hw, .none, hn, he, ha⟩
  · rintro ⟨w, g, t, base, rfl, hw, hg, hn, he, ha⟩
    have hm := magnitude_numeral hn he ha
    obtain ⟨b, t', rfl, h1, h2⟩ := numeral_head hn
    have e45 : (45#8).toNat = 45 := rfl
    have e43 : (43#8).toNat = 43 := rfl
    unfold scan
    cases hg with
    | none =>
      rw [drop_white hw (by intro c t e; cases e; unfold White; omega)]
      have : sign ([] ++ (b :: t' ++ r)) = (false, b :: t' ++ r) := by
        unfold sign
        rw [if_neg, if_neg]
        · rfl
        · intro h; injection h with h; rw [h] at h1; omega
        · intro h; injection h with h; rw [h] at h1; omega
      rw [this, hm]
      rfl
    | plus =>
      rw [drop_white hw (by intro c t e; cases e; unfold White; omega)]
      show (magnitude (b :: t' ++ r)).map _ = _
      rw [hm]
      rfl
    | minus =>
      rw [drop_white hw (by intro c t e; cases e; unfold White; omega)]
      show (magnitude (b :: t' ++ r)).map _ = _
      rw [hm]
      rfl

theorem decimal_small {n : Nat} (h : n < 10) : decimal n = [BitVec.ofNat 8 (48 + n)] := by
  rw [decimal, if_pos h]

theorem decimal_large {n : Nat} (h : ¬ n < 10) : decimal n = decimal (n / 10) ++ [BitVec.ofNat 8 (48 + n % 10)] := by
  rw [decimal, if_neg h]

theorem decimal_digit {v : Nat} (h : v < 10) : IsDigit 10 (BitVec.ofNat 8 (48 + v)) v := by
  refine ⟨h, .inl ⟨h, ?_⟩⟩
  rw [BitVec.toNat_ofNat]
  omega

theorem decimal_denotes (n : Nat) : Denotes 10 (decimal n) n := by
  induction n using Nat.strongRecOn with
  | _ n ih =>
    by_cases h : n < 10
    · rw [decimal_small h]
      exact .one (decimal_digit h)
    · rw [decimal_large h]
      have := Denotes.more (ih (n / 10) (by omega)) (decimal_digit (v := n % 10) (by omega))
      rw [Nat.div_add_mod'] at this
      exact this

theorem decimal_head (n : Nat) (h0 : n ≠ 0) : (decimal n).head? ≠ some 48#8 := by
  induction n using Nat.strongRecOn with
  | _ n ih =>
    by_cases h : n < 10
    · rw [decimal_small h]
      intro e
      injection e with e
      have := congrArg BitVec.toNat e
      rw [BitVec.toNat_ofNat] at this
      have e48 : (48#8).toNat = 48 := rfl
      omega
    · rw [decimal_large h]
      have := ih (n / 10) (by omega) (by omega)
      cases hd : decimal (n / 10) with
      | nil => exact absurd hd (denotes_ne (decimal_denotes _))
      | cons b t => rw [hd] at this; exact this

theorem decimal_numeral (n : Nat) : ∃ base, Numeral (decimal n) base n := by
  by_cases h : n = 0
  · subst h
    exact ⟨8, by rw [decimal_small (by decide)]; exact .zero⟩
  · exact ⟨10, .decimal (decimal_denotes n) (decimal_head n h)⟩

theorem decimal_reads (n : Nat) : Reads (decimal n) false n [] := by
  obtain ⟨base, h⟩ := decimal_numeral n
  exact ⟨[], [], decimal n, base, by simp, (fun b h => by cases h), .none, h, (fun b t v e => by cases e), fun _ x y t v e => by cases e⟩

theorem decimal_range (n : Nat) : ∀ b ∈ decimal n, 48 ≤ b.toNat ∧ b.toNat ≤ 57 := by
  induction n using Nat.strongRecOn with
  | _ n ih =>
    have one : ∀ v, v < 10 → 48 ≤ (BitVec.ofNat 8 (48 + v)).toNat ∧ (BitVec.ofNat 8 (48 + v)).toNat ≤ 57 := by
      intro v hv
      rw [BitVec.toNat_ofNat]
      omega
    by_cases h : n < 10
    · rw [decimal_small h]
      intro b hb
      rw [List.mem_singleton.1 hb]
      exact one n h
    · rw [decimal_large h]
      intro b hb
      rcases List.mem_append.1 hb with hb | hb
      · exact ih _ (by omega) b hb
      · rw [List.mem_singleton.1 hb]
        exact one _ (by omega)

theorem decimal_length (k : Nat) : ∀ n, n < 10 ^ (k + 1) → (decimal n).length ≤ k + 1 := by
  induction k with
  | zero => intro n h; rw [decimal_small (by simpa using h)]; simp
  | succ k ih =>
    intro n h
    by_cases h1 : n < 10
    · rw [decimal_small h1]; simp
    · rw [decimal_large h1, List.length_append, List.length_singleton]
      have := ih (n / 10) (by rw [Nat.pow_succ] at h; omega)
      omega

end Diminuto.Number
