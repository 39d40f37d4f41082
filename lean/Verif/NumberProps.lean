import Verif.NumberLemmas

/-!
# Properties of the conversion of numbers and ports
-/

namespace Diminuto.Number

/-- The numeral at the beginning of a string is unique. -/
theorem number_unique {s : List Byte} {g g' : Bool} {n n' : Nat} {r r' : List Byte} (h : Reads s g n r) (h' : Reads s g' n' r') : g = g' ∧ n = n' ∧ r = r' := by
  have := ((scan_iff s g n r).2 h).symm.trans ((scan_iff s g' n' r').2 h')
  cases this
  exact ⟨rfl, rfl, rfl⟩

example : Reads [49#8, 50#8, 122#8] false 12 [122#8] := (scan_iff _ _ _ _).1 (by decide)

/-- `diminuto_number_unsigned` stores the value of the numeral (modulo 2^64 if there is a minus), returns a pointer to what follows it, and sets `errno` if something does;
a number that is too large becomes the largest one. -/
theorem number_unsigned_reads {s : List Byte} {g : Bool} {n : Nat} {r : List Byte} (h : Reads s g n r) :
    (n < 2 ^ 64 → g = false → (unsigned s).1 = n) ∧
    (n < 2 ^ 64 → g = true → (unsigned s).1 < 2 ^ 64 ∧ ((unsigned s).1 + n) % 2 ^ 64 = 0) ∧
    (2 ^ 64 ≤ n → (unsigned s).1 = 2 ^ 64 - 1) ∧
    (unsigned s).2.1 = r ∧
    ((unsigned s).2.2 = some .invalid ↔ r ≠ []) ∧
    ((unsigned s).2.2 = some .range ↔ r = [] ∧ 2 ^ 64 ≤ n) := by
  have hs := (scan_iff s g n r).2 h
  unfold unsigned strtoull
  rw [hs]
  by_cases hn : n < 2 ^ 64
  · simp only [hn, if_true]
    refine ⟨fun _ e => by simp [e], fun _ e => ?_, fun h => absurd h (by omega), trivial, ?_, ?_⟩
    · simp only [e, if_true]
      omega
    · by_cases hr : r = [] <;> simp [hr]
    · by_cases hr : r = [] <;> simp [hr]
      omega
  · simp only [hn, if_false]
    refine ⟨fun h => absurd h (by simp), fun h => absurd h (by simp), fun _ => trivial, trivial, ?_, ?_⟩
    · by_cases hr : r = [] <;> simp [hr]
    · by_cases hr : r = [] <;> simp [hr]
      omega

/-- The same for `diminuto_number_signed`. -/
theorem number_signed_reads {s : List Byte} {g : Bool} {n : Nat} {r : List Byte} (h : Reads s g n r) :
    (n < 2 ^ 63 → g = false → (signed s).1 = n) ∧
    (n ≤ 2 ^ 63 → g = true → (signed s).1 = -(n : Int)) ∧
    (2 ^ 63 ≤ n → g = false → (signed s).1 = 2 ^ 63 - 1) ∧
    (2 ^ 63 < n → g = true → (signed s).1 = -2 ^ 63) ∧
    (signed s).2.1 = r ∧
    ((signed s).2.2 = some .invalid ↔ r ≠ []) ∧
    ((signed s).2.2 = some .range ↔ r = [] ∧ (if g then 2 ^ 63 < n else 2 ^ 63 ≤ n)) := by
  have hs := (scan_iff s g n r).2 h
  unfold signed strtoll
  rw [hs]
  cases g
  · by_cases hn : n < 2 ^ 63
    · have hn' : ¬ 2 ^ 63 ≤ n := by omega
      by_cases hr : r = [] <;> simp [hn, hn', hr] <;> omega
    · have hn' : 2 ^ 63 ≤ n := by omega
      by_cases hr : r = [] <;> simp [hn, hn', hr] <;> omega
  · by_cases hn : n ≤ 2 ^ 63
    · have hn' : ¬ 2 ^ 63 < n := by omega
      by_cases hr : r = [] <;> simp [hn, hn', hr] <;> omega
    · have hn' : 2 ^ 63 < n := by omega
      by_cases hr : r = [] <;> simp [hn, hn', hr] <;> omega

/-- If a string does not begin with a numeral, the number is zero, the pointer is to the beginning, and `errno` is set unless the string is empty. -/
theorem number_none {s : List Byte} (h : ∀ g n r, ¬ Reads s g n r) :
    unsigned s = (0, s, if s ≠ [] then some .invalid else none) ∧ signed s = (0, s, if s ≠ [] then some .invalid else none) := by
  have hs : scan s = none := by
    cases e : scan s with
    | none => rfl
    | some x => exact absurd ((scan_iff s x.1 x.2.1 x.2.2).1 e) (h _ _ _)
  unfold unsigned signed strtoull strtoll
  rw [hs]
  exact ⟨rfl, rfl⟩

/-- The pointer that is returned points into the string. -/
theorem number_pointer (s : List Byte) : (unsigned s).2.1 <:+ s ∧ (signed s).2.1 <:+ s := by
  by_cases h : ∃ g n r, Reads s g n r
  · obtain ⟨g, n, r, h⟩ := h
    rw [(number_unsigned_reads h).2.2.2.1, (number_signed_reads h).2.2.2.2.1]
    obtain ⟨w, g, t, base, rfl, -⟩ := h
    have : r <:+ w ++ (g ++ (t ++ r)) := ⟨w ++ (g ++ t), by simp⟩
    exact ⟨this, this⟩
  · have h : ∀ g n r, ¬ Reads s g n r := fun g n r hh => h ⟨g, n, r, hh⟩
    rw [(number_none h).1, (number_none h).2]
    exact ⟨List.suffix_refl _, List.suffix_refl _⟩

/-- The full claim, that a string is accepted (`errno` is not set) exactly if it is a numeral without a minus whose value fits, and that the value is stored: the string must not be
empty and must not have a minus. -/
theorem number_unsigned_accepts_partial (s : List Byte) (hs : s ≠ []) (hm : ∀ n r, ¬ Reads s true n r) (n : Nat) :
    (unsigned s).2.2 = none ∧ (unsigned s).1 = n ↔ Reads s false n [] ∧ n < 2 ^ 64 := by
  by_cases h : ∃ g n r, Reads s g n r
  · obtain ⟨g, m, r, h⟩ := h
    cases g with
    | true => exact absurd h (hm m r)
    | false =>
      obtain ⟨h1, h2, h3, h4, h5, h6⟩ := number_unsigned_reads h
      constructor
      · rintro ⟨he, rfl⟩
        rw [he] at h5 h6
        by_cases hr : r = []
        · subst hr
          by_cases hl : m < 2 ^ 64
          · rw [h1 hl rfl]
            exact ⟨h, hl⟩
          · have := h6.2 ⟨rfl, by omega⟩
            cases this
        · have := h5.2 hr
          cases this
      · rintro ⟨hh, hl⟩
        obtain ⟨-, rfl, rfl⟩ := number_unique h hh
        refine ⟨?_, h1 hl rfl⟩
        cases hx : (unsigned s).2.2 with
        | none => rfl
        | some x =>
          cases x with
          | range => have := (h6.1 hx).2; omega
          | invalid => exact absurd rfl (h5.1 hx)
  · have h : ∀ g n r, ¬ Reads s g n r := fun g n r hh => h ⟨g, n, r, hh⟩
    constructor
    · rintro ⟨he, -⟩
      rw [(number_none h).1] at he
      simp [hs] at he
    · rintro ⟨hh, -⟩
      exact absurd hh (h _ _ _)

example : Reads [48#8, 120#8, 70#8, 102#8] false 255 [] := (scan_iff _ _ _ _).1 (by decide)

/-- An empty string is accepted as an unsigned number. -/
theorem number_empty_counterexample : (unsigned []).2.2 = none ∧ (signed []).2.2 = none ∧ ∀ g n r, ¬ Reads [] g n r :=
  ⟨by decide, by decide, fun g n r h => by have := (scan_iff _ _ _ _).2 h; cases this⟩

/-- `-1` is accepted as an unsigned number, the largest one. -/
theorem number_negative_counterexample : Reads [45#8, 49#8] true 1 [] ∧ unsigned [45#8, 49#8] = (2 ^ 64 - 1, [], none) :=
  ⟨(scan_iff _ _ _ _).1 (by decide), by decide⟩

/-- `diminuto_number_signed` accepts exactly the numerals whose value fits, apart from the empty string. -/
theorem number_signed_accepts_partial (s : List Byte) (hs : s ≠ []) (i : Int) :
    (signed s).2.2 = none ∧ (signed s).1 = i ↔
      ∃ g n, Reads s g n [] ∧ i = (if g then -(n : Int) else n) ∧ -2 ^ 63 ≤ i ∧ i < 2 ^ 63 := by
  by_cases h : ∃ g n r, Reads s g n r
  · obtain ⟨g, m, r, h⟩ := h
    obtain ⟨h1, h2, h3, h4, h5, h6, h7⟩ := number_signed_reads h
    constructor
    · rintro ⟨he, rfl⟩
      rw [he] at h6 h7
      by_cases hr : r = []
      · subst hr
        refine ⟨g, m, h, ?_⟩
        have h7 : ¬ (if g then 2 ^ 63 < m else 2 ^ 63 ≤ m) := fun hh => by
          have := h7.2 ⟨rfl, hh⟩
          cases this
        cases g with
        | false =>
          have h7 : ¬ 2 ^ 63 ≤ m := h7
          rw [h1 (by omega) rfl]
          exact ⟨rfl, by omega, by omega⟩
        | true =>
          have h7 : ¬ 2 ^ 63 < m := h7
          rw [h2 (by omega) rfl]
          exact ⟨rfl, by omega, by omega⟩
      · have := h6.2 hr
        cases this
    · rintro ⟨g', n, hh, rfl, hl, hl'⟩
      obtain ⟨rfl, rfl, rfl⟩ := number_unique h hh
      constructor
      · cases hx : (signed s).2.2 with
        | none => rfl
        | some x =>
          cases x with
          | range =>
            have := (h7.1 hx).2
            cases g with
            | false =>
              have this : 2 ^ 63 ≤ m := this
              have hl' : (m : Int) < 2 ^ 63 := hl'
              omega
            | true =>
              have this : 2 ^ 63 < m := this
              have hl : -2 ^ 63 ≤ -(m : Int) := hl
              omega
          | invalid => exact absurd rfl (h6.1 hx)
      · cases g with
        | false =>
          have hl' : (m : Int) < 2 ^ 63 := hl'
          exact h1 (by omega) rfl
        | true =>
          have hl : -2 ^ 63 ≤ -(m : Int) := hl
          exact h2 (by omega) rfl
  · have h : ∀ g n r, ¬ Reads s g n r := fun g n r hh => h ⟨g, n, r, hh⟩
    constructor
    · rintro ⟨he, -⟩
      rw [(number_none h).2] at he
      simp [hs] at he
    · rintro ⟨g, n, hh, -⟩
      exact absurd hh (h _ _ _)

example : Reads [45#8, 48#8, 49#8, 48#8] true 8 [] := (scan_iff _ _ _ _).1 (by decide)

/-- A string, perhaps after a colon, that is not the name of a service yields the port that it denotes, and zero if that is too large or there is no numeral. -/
theorem number_port (service : List Byte → Option (BitVec 16)) (s : List Byte) (colon : Bool) (hc : colon = false → s.head? ≠ some 58#8) :
    (∀ p, service s = some p → port service (if colon then 58#8 :: s else s) = p) ∧
    (service s = none → ∀ n, Reads s false n [] → (port service (if colon then 58#8 :: s else s)).toNat = if n ≤ 65535 then n else 0) ∧
    (service s = none → (∀ g n, ¬ Reads s g n []) → port service (if colon then 58#8 :: s else s) = 0) := by
  have hp : port service (if colon then 58#8 :: s else s) =
      (match service s with
        | some p => p
        | none => if (unsigned s).2.1 ≠ [] then 0 else if (unsigned s).1 > 65535 then 0 else BitVec.ofNat 16 (unsigned s).1) := by
    unfold port
    cases colon with
    | true => rfl
    | false =>
      have := hc rfl
      simp only [Bool.false_eq_true, if_false, this]
      rfl
  rw [hp]
  refine ⟨fun p e => by rw [e], fun e n h => ?_, fun e h => ?_⟩
  · rw [e]
    obtain ⟨h1, -, h3, h4, -⟩ := number_unsigned_reads h
    simp only [h4, ne_eq, not_true_eq_false, if_false]
    by_cases hl : n < 2 ^ 64
    · rw [h1 hl rfl]
      by_cases hn : n ≤ 65535
      · rw [if_neg (by omega), if_pos hn, BitVec.toNat_ofNat]
        omega
      · rw [if_pos (by omega), if_neg hn]
        rfl
    · rw [h3 (by omega), if_pos (by decide), if_neg (by omega)]
      rfl
  · rw [e]
    by_cases hh : ∃ g n r, Reads s g n r
    · obtain ⟨g, n, r, hh⟩ := hh
      obtain ⟨-, -, -, h4, -⟩ := number_unsigned_reads hh
      have : r ≠ [] := fun e => h g n (e ▸ hh)
      simp [h4, this]
    · have hh : ∀ g n r, ¬ Reads s g n r := fun g n r h => hh ⟨g, n, r, h⟩
      rw [(number_none hh).1]
      by_cases hs : s = [] <;> simp [hs]

example : Reads [56#8, 48#8] false 80 [] := (scan_iff _ _ _ _).1 (by decide)

/-- A port is not zero only if the string is the name of a service or a numeral that is not too large; but one with a minus may also yield a port. -/
theorem number_port_only_partial (service : List Byte → Option (BitVec 16)) (s : List Byte) (hc : s.head? ≠ some 58#8) (hp : port service s ≠ 0) :
    service s = some (port service s) ∨ Reads s false (port service s).toNat [] ∨ ∃ n, Reads s true n [] := by
  obtain ⟨h1, h2, h3⟩ := number_port service s false (fun _ => hc)
  cases e : service s with
  | some p => exact .inl (by rw [show port service s = p from h1 p e])
  | none =>
    right
    by_cases hh : ∃ g n, Reads s g n []
    · obtain ⟨g, n, hh⟩ := hh
      cases g with
      | true => exact .inr ⟨n, hh⟩
      | false =>
        left
        have := h2 e n hh
        rw [show (if false = true then 58#8 :: s else s) = s from rfl] at this
        by_cases hn : n ≤ 65535
        · rw [if_pos hn] at this
          rw [this]
          exact hh
        · rw [if_neg hn] at this
          exact absurd (BitVec.eq_of_toNat_eq this) hp
    · exact absurd (h3 e (fun g n h => hh ⟨g, n, h⟩)) hp

/-- `-18446744073709551615` is taken for port 1. -/
theorem number_port_negative_counterexample :
    port (fun _ => none) [45#8, 49#8, 56#8, 52#8, 52#8, 54#8, 55#8, 52#8, 52#8, 48#8, 55#8, 51#8, 55#8, 48#8, 57#8, 53#8, 53#8, 49#8, 54#8, 49#8, 53#8] = 1 := by decide

/-- A leading zero makes a port octal: `010` is port 8. -/
theorem number_port_octal_counterexample : port (fun _ => none) [48#8, 49#8, 48#8] = 8 := by decide

/-- `diminuto_ipc_port2string` writes only into the buffer, and leaves in it as much as fits of the decimal digits of the port. -/
theorem number_port2string (p : BitVec 16) (buffer : List Byte) :
    (port2string p buffer).length = buffer.length ∧
    (buffer ≠ [] → text (port2string p buffer) = (decimal p.toNat).take (buffer.length - 1)) ∧
    Denotes 10 (decimal p.toNat) p.toNat ∧ (p ≠ 0 → (decimal p.toNat).head? ≠ some 48#8) ∧ (decimal p.toNat).length ≤ 5 := by
  refine ⟨?_, fun hb => ?_, decimal_denotes _, fun h => decimal_head _ fun e => h (BitVec.eq_of_toNat_eq e), decimal_length 4 _ (by have := p.isLt; omega)⟩
  · unfold port2string
    split
    · simp only [List.length_set, List.length_append, List.length_cons, List.length_drop, List.length_take]
      omega
    · rfl
  · have hl : buffer.length > 0 := List.length_pos_iff.2 hb
    unfold port2string
    rw [if_pos hl]
    simp only []
    have hr : ∀ b ∈ (decimal p.toNat).take (buffer.length - 1), decide (b ≠ 0#8) = true := by
      intro b hb
      have := decimal_range _ b (List.mem_of_mem_take hb)
      apply decide_eq_true
      rintro rfl
      exact absurd this.1 (by decide)
    have hlen : ((decimal p.toNat).take (buffer.length - 1)).length ≤ buffer.length - 1 := by rw [List.length_take]; omega
    generalize (decimal p.toNat).take (buffer.length - 1) = t at hr hlen
    rw [List.set_append_right _ _ hlen]
    unfold text
    rw [List.takeWhile_append_of_pos hr]
    cases hk : buffer.length - 1 - t.length with
    | zero => simp
    | succ k => simp

/-- The string for a port is read back as that port, with and without a colon, if the buffer has at least six bytes and no service has such a name. -/
theorem number_port_round_trip (service : List Byte → Option (BitVec 16)) (p : BitVec 16) (buffer : List Byte) (hb : 6 ≤ buffer.length)
    (hs : service (text (port2string p buffer)) = none) :
    port service (text (port2string p buffer)) = p ∧ port service (58#8 :: text (port2string p buffer)) = p := by
  obtain ⟨-, h2, -, -, h5⟩ := number_port2string p buffer
  have ht : text (port2string p buffer) = decimal p.toNat := by
    rw [h2 (by rintro rfl; simp at hb), List.take_of_length_le (by omega)]
  rw [ht] at hs ⊢
  have hc : (decimal p.toNat).head? ≠ some 58#8 := by
    intro h
    have := decimal_range p.toNat 58#8 (List.mem_of_mem_head? (by rw [h]; rfl))
    exact absurd this.2 (by decide)
  have hr := decimal_reads p.toNat
  have hp := p.isLt
  constructor
  · have : (port service (decimal p.toNat)).toNat = _ := (number_port service _ false (fun _ => hc)).2.1 hs _ hr
    rw [if_pos (show p.toNat ≤ 65535 by omega)] at this
    exact BitVec.eq_of_toNat_eq this
  · have : (port service (58#8 :: decimal p.toNat)).toNat = _ := (number_port service (decimal p.toNat) true (fun h => by cases h)).2.1 hs _ hr
    rw [if_pos (show p.toNat ≤ 65535 by omega)] at this
    exact BitVec.eq_of_toNat_eq this

example : text (port2string 65535#16 [1#8, 2#8, 3#8, 4#8, 5#8, 6#8]) = [54#8, 53#8, 53#8, 51#8, 53#8] := by
  obtain ⟨-, h, -⟩ := number_port2string 65535#16 [1#8, 2#8, 3#8, 4#8, 5#8, 6#8]
  rw [h (by simp)]
  simp [decimal]

end Diminuto.Number
