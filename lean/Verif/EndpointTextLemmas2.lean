import Verif.EndpointTextLemmas

/-!
# Lemmas for the conversion of endpoints to strings: telling endpoints apart, and reading them back
-/

namespace Diminuto.EndpointText

open Endpoint (Result Kind)
open Number (decimal)

/-- A part before a comma, and what follows. -/
theorem comma_inj {s t u v : List Byte} (hs : 44#8 ∉ s) (ht : 44#8 ∉ t) (hu : u = [] ∨ ∃ r, u = 44#8 :: r) (hv : v = [] ∨ ∃ r, v = 44#8 :: r)
    (h : s ++ u = t ++ v) : s = t ∧ u = v := by
  have ps : ∀ b ∈ s, decide (b ≠ 44#8) = true := fun b hb => decide_eq_true (by rintro rfl; exact hs hb)
  have pt : ∀ b ∈ t, decide (b ≠ 44#8) = true := fun b hb => decide_eq_true (by rintro rfl; exact ht hb)
  have pc : decide (44#8 ≠ (44#8 : Byte)) = false := by decide
  rcases hu with rfl | ⟨u, rfl⟩ <;> rcases hv with rfl | ⟨v, rfl⟩
  · simpa using h
  · exfalso
    apply hs
    rw [List.append_nil] at h
    rw [h]
    simp
  · exfalso
    apply ht
    rw [List.append_nil] at h
    rw [← h]
    simp
  · obtain ⟨h1, -, h3⟩ := append_cons_inj ps pt pc pc h
    exact ⟨h1, by rw [h3]⟩

theorem comma_dotted (a : BitVec 32) : 44#8 ∉ dotted a := fun h => absurd (dotted_chars a _ h) (by decide)
theorem comma_ports (t u : BitVec 16) : 44#8 ∉ ports t u := fun h => absurd (ports_chars t u _ h) (by decide)
theorem comma_ntop {ntop : BitVec 128 → List Byte} (hn : Printer ntop) (a : BitVec 128) : 44#8 ∉ ntop a := fun h => absurd (hn.chars a _ h) (by decide)

/-- The address of a family, or nothing. -/
def host4 (a : BitVec 32) : List Byte := if a = 0 then [] else dotted a

/-- The address of a family, or nothing. -/
def host6 (ntop : BitVec 128 → List Byte) (a : BitVec 128) : List Byte := if a = 0 then [] else [91#8] ++ ntop a ++ [93#8]

theorem shown4 (ntop : BitVec 128 → List Byte) {e : Result} (h : e.type = .ipv4) :
    shown ntop e = (host4 e.ipv4 ++ ports e.tcp e.udp) ++ (if e.ipv6 = 0 then [] else 44#8 :: (host6 ntop e.ipv6 ++ ports e.tcp e.udp)) := by
  unfold shown host4 host6
  rw [h]
  simp only []
  by_cases h6 : e.ipv6 = 0
  · rw [if_pos h6, if_pos h6]
  · rw [if_neg h6, if_neg h6, if_neg h6]
    simp

theorem shown6 (ntop : BitVec 128 → List Byte) {e : Result} (h : e.type = .ipv6) :
    shown ntop e = (host6 ntop e.ipv6 ++ ports e.tcp e.udp) ++ (if e.ipv4 = 0 then [] else 44#8 :: (host4 e.ipv4 ++ ports e.tcp e.udp)) := by
  unfold shown host4 host6
  rw [h]
  simp only []
  by_cases h4 : e.ipv4 = 0
  · rw [if_pos h4, if_pos h4]
  · rw [if_neg h4, if_neg h4, if_neg h4]
    simp

theorem comma_host4 (a : BitVec 32) (t u : BitVec 16) : 44#8 ∉ host4 a ++ ports t u := by
  unfold host4
  intro h
  rcases List.mem_append.1 h with h | h
  · split at h
    · cases h
    · exact comma_dotted a h
  · exact comma_ports t u h

theorem comma_host6 {ntop : BitVec 128 → List Byte} (hn : Printer ntop) (a : BitVec 128) (t u : BitVec 16) : 44#8 ∉ host6 ntop a ++ ports t u := by
  unfold host6
  intro h
  rcases List.mem_append.1 h with h | h
  · split at h
    · cases h
    · simp only [List.mem_append] at h
      rcases h with (h | h) | h
      · exact absurd h (by decide)
      · exact comma_ntop hn a h
      · exact absurd h (by decide)
  · exact comma_ports t u h

theorem host4_inj {a b : BitVec 32} {t u t' u' : BitVec 16} (h : host4 a ++ ports t u = host4 b ++ ports t' u') : a = b ∧ t = t' ∧ u = u' := by
  have hcol : Endpoint.digitDot 58#8 = false := by decide
  have mixed : ∀ (c : BitVec 32) (x y : BitVec 16) (r : List Byte), dotted c ++ r ≠ ports x y := fun c x y r e => by
    obtain ⟨k, s, hk, hd⟩ := dotted_head c
    rw [hk] at e
    rcases ports_shape x y with hp | ⟨q, hp⟩
    · rw [hp] at e; cases e
    · rw [hp] at e
      simp only [List.cons_append, List.cons.injEq] at e
      rw [e.1] at hd
      exact absurd hd (by decide)
  unfold host4 at h
  split at h
  · rename_i ha
    split at h
    · rename_i hb
      rw [List.nil_append, List.nil_append] at h
      exact ⟨ha.trans hb.symm, ports_inj h⟩
    · rw [List.nil_append] at h
      exact absurd h.symm (mixed _ _ _ _)
  · split at h
    · rw [List.nil_append] at h
      exact absurd h (mixed _ _ _ _)
    · rcases ports_shape t u with hp | ⟨r, hp⟩ <;> rcases ports_shape t' u' with hq | ⟨r', hq⟩
      · have : t = t' ∧ u = u' := ports_inj (hp.trans hq.symm)
        rw [hp, hq, List.append_nil, List.append_nil] at h
        exact ⟨dotted_inj h, this⟩
      · exfalso
        rw [hp, hq, List.append_nil] at h
        exact absurd (dotted_chars a 58#8 (by rw [h]; simp)) (by decide)
      · exfalso
        rw [hp, hq, List.append_nil] at h
        exact absurd (dotted_chars b 58#8 (by rw [← h]; simp)) (by decide)
      · have h' := h
        rw [hp, hq] at h
        obtain ⟨h1, -, h3⟩ := append_cons_inj (dotted_chars a) (dotted_chars b) hcol hcol h
        exact ⟨dotted_inj h1, ports_inj (by rw [hp, hq, h3])⟩

theorem host6_inj {ntop : BitVec 128 → List Byte} (hn : Printer ntop) {a b : BitVec 128} {t u t' u' : BitVec 16}
    (h : host6 ntop a ++ ports t u = host6 ntop b ++ ports t' u') : a = b ∧ t = t' ∧ u = u' := by
  have hbr : Endpoint.addressChar 93#8 = false := by decide
  have mixed : ∀ (s : List Byte) (x y : BitVec 16), 91#8 :: s ≠ ports x y := fun s x y e => by
    rcases ports_shape x y with hp | ⟨q, hp⟩
    · rw [hp] at e; cases e
    · rw [hp] at e
      simp only [List.cons.injEq] at e
      exact absurd e.1 (by decide)
  unfold host6 at h
  split at h
  · rename_i ha
    split at h
    · rename_i hb
      rw [List.nil_append, List.nil_append] at h
      exact ⟨ha.trans hb.symm, ports_inj h⟩
    · exact absurd h.symm (mixed _ _ _)
  · split at h
    · exact absurd h (mixed _ _ _)
    · simp only [List.cons_append, List.nil_append, List.append_assoc, List.cons.injEq, true_and] at h
      obtain ⟨h1, -, h3⟩ := append_cons_inj (hn.chars a) (hn.chars b) hbr hbr h
      exact ⟨hn.apart _ _ h1, ports_inj h3⟩

theorem opt_comma (p : Prop) [Decidable p] (s : List Byte) : (if p then [] else 44#8 :: s) = [] ∨ ∃ r, (if p then [] else 44#8 :: s) = 44#8 :: r := by
  split
  · exact .inl rfl
  · exact .inr ⟨_, rfl⟩

/-- The first part tells the families apart if it has an address. -/
theorem host_mixed {ntop : BitVec 128 → List Byte} {a : BitVec 32} {b : BitVec 128} {t u t' u' : BitVec 16}
    (h : host4 a ++ ports t u = host6 ntop b ++ ports t' u') : a = 0 ∧ b = 0 := by
  unfold host4 host6 at h
  split at h
  · rename_i ha
    split at h
    · rename_i hb
      exact ⟨ha, hb⟩
    · exfalso
      rcases ports_shape t u with hp | ⟨q, hp⟩
      · rw [hp] at h; simp at h
      · rw [hp] at h
        simp only [List.nil_append, List.cons_append, List.cons.injEq] at h
        exact absurd h.1 (by decide)
  · exfalso
    obtain ⟨k, s, hk, hd⟩ := dotted_head a
    rw [hk] at h
    split at h
    · rcases ports_shape t' u' with hp | ⟨q, hp⟩
      · rw [hp] at h; simp at h
      · rw [hp] at h
        simp only [List.nil_append, List.cons_append, List.cons.injEq] at h
        rw [h.1] at hd
        exact absurd hd (by decide)
    · simp only [List.nil_append, List.cons_append, List.cons.injEq] at h
      rw [h.1] at hd
      exact absurd hd (by decide)

/-! ## Reading back -/

theorem value_append (s : List Byte) (b : Byte) : Endpoint.value (s ++ [b]) = Endpoint.value s * 10 + (b.toNat - 48) := by
  unfold Endpoint.value
  rw [List.foldl_append]
  rfl

theorem value_decimal (n : Nat) : Endpoint.value (decimal n) = n := by
  induction n using Nat.strongRecOn with
  | ind n ih =>
    by_cases h : n < 10
    · rw [Number.decimal_small h]
      simp only [Endpoint.value, List.foldl_cons, List.foldl_nil, BitVec.toNat_ofNat]
      omega
    · rw [Number.decimal_large h, value_append, ih _ (by omega), BitVec.toNat_ofNat]
      omega

/-- What the port of an endpoint is. -/
def portPhrase (p : BitVec 16) : Endpoint.Port := if p = 0 then .none else .number (decimal p.toNat)

theorem ports_same (p : BitVec 16) : ports p p = if p = 0 then [] else 58#8 :: decimal p.toNat := by
  unfold ports
  by_cases h : p = 0
  · rw [if_pos ⟨h, h⟩, if_pos h]
  · rw [if_neg (fun hh => h hh.1), if_pos rfl, if_neg h]

theorem all_digits (n : Nat) : (decimal n).all Endpoint.isDigit = true := List.all_eq_true.2 (decimal_chars n)

theorem portOf_decimal (n : Nat) : Endpoint.portOf (decimal n) = some (.number (decimal n)) := by
  have ha := all_digits n
  have hne := decimal_ne n
  generalize decimal n = s at ha hne
  cases s with
  | nil => exact absurd rfl hne
  | cons c r =>
    have hc : Endpoint.isDigit c = true := by
      rw [List.all_cons, Bool.and_eq_true] at ha
      exact ha.1
    unfold Endpoint.portOf
    simp only [hc, ha, if_true]

theorem takeWhile_stop {p : Byte → Bool} {s : List Byte} {c : Byte} {r : List Byte} (hs : ∀ b ∈ s, p b = true) (hc : p c = false) :
    (s ++ c :: r).takeWhile p = s ∧ (s ++ c :: r).dropWhile p = c :: r := by
  constructor
  · rw [List.takeWhile_append_of_pos hs]
    simp [hc]
  · rw [List.dropWhile_append_of_pos hs]
    simp [hc]

theorem takeWhile_whole {p : Byte → Bool} {s : List Byte} (hs : ∀ b ∈ s, p b = true) : s.takeWhile p = s ∧ s.dropWhile p = [] := by
  constructor
  · have := List.takeWhile_append_of_pos (l₂ := []) hs
    simpa using this
  · have := List.dropWhile_append_of_pos (l₂ := []) hs
    simpa using this

theorem grammar6 {ntop : BitVec 128 → List Byte} (hn : Printer ntop) (a : BitVec 128) (p : BitVec 16) :
    Endpoint.grammar ([91#8] ++ ntop a ++ [93#8] ++ ports p p) = some (.net (.ipv6 (ntop a)) (portPhrase p)) := by
  have hbr : Endpoint.addressChar 93#8 = false := by decide
  have e : [91#8] ++ ntop a ++ [93#8] ++ ports p p = 91#8 :: (ntop a ++ 93#8 :: ports p p) := by simp
  have hb : Endpoint.bracketed (ntop a ++ 93#8 :: ports p p) = some (.net (.ipv6 (ntop a)) (portPhrase p)) := by
    unfold Endpoint.bracketed
    obtain ⟨h1, h2⟩ := takeWhile_stop (r := ports p p) (hn.chars a) hbr
    rw [h1, h2]
    simp only []
    rw [if_pos (show (93#8 : Byte) = Endpoint.ch ']' from rfl), ports_same]
    unfold portPhrase
    by_cases hp : p = 0
    · rw [if_pos hp, if_pos hp]
    · rw [if_neg hp, if_neg hp]
      simp only []
      rw [if_pos (show (58#8 : Byte) = Endpoint.ch ':' from rfl), portOf_decimal]
      rfl
  rw [e]
  unfold Endpoint.grammar
  rw [List.dropWhile_cons_of_neg (by decide)]
  simp only []
  rw [if_neg (by decide), if_neg (by decide), if_pos (show (91#8 : Byte) = Endpoint.ch '[' from rfl)]
  exact hb

theorem dotted_hostChar (a : BitVec 32) : ∀ c ∈ dotted a, Endpoint.hostChar c = true := by
  intro c hc
  have := dotted_chars a c hc
  unfold Endpoint.digitDot at this
  unfold Endpoint.hostChar Endpoint.alnum
  revert this
  cases Endpoint.isDigit c <;> simp
  intro h; simp [h]

theorem dotted_kind (a : BitVec 32) : Endpoint.hostKind (dotted a) = .ipv4 := by
  unfold Endpoint.hostKind
  rw [if_neg, if_pos (List.all_eq_true.2 (dotted_chars a))]
  intro h
  have : (46#8 : Byte) ∈ dotted a := by
    unfold dotted
    simp
  exact absurd (List.all_eq_true.1 h _ this) (by decide)

theorem grammar4 (a : BitVec 32) (p : BitVec 16) : Endpoint.grammar (dotted a ++ ports p p) = some (.net (.ipv4 (dotted a)) (portPhrase p)) := by
  obtain ⟨c, r, hcr, hd⟩ := dotted_head a
  have hsplit : (dotted a ++ ports p p).takeWhile Endpoint.hostChar = dotted a ∧ (dotted a ++ ports p p).dropWhile Endpoint.hostChar = ports p p := by
    rw [ports_same]
    by_cases hp : p = 0
    · rw [if_pos hp, List.append_nil]
      exact takeWhile_whole (dotted_hostChar a)
    · rw [if_neg hp]
      exact takeWhile_stop (dotted_hostChar a) (by decide)
  have hs : Endpoint.starter c = true := by
    unfold Endpoint.starter Endpoint.alnum
    rw [hd]
    rfl
  obtain ⟨f1, f2, f3, f4, f5, f6, f7, -⟩ := Endpoint.digit_facts hd
  unfold Endpoint.grammar
  have e : dotted a ++ ports p p = c :: (r ++ ports p p) := by rw [hcr]; rfl
  rw [e, List.dropWhile_cons_of_neg (by simp [hs])]
  simp only []
  rw [if_neg (by rintro (h | h); exact f4 h; exact f1 h), if_neg f3, if_neg f7, ← e, hsplit.1, hsplit.2, dotted_kind, ports_same]
  unfold portPhrase Endpoint.withHost
  by_cases hp : p = 0
  · rw [if_pos hp, if_pos hp]
  · rw [if_neg hp, if_neg hp]
    simp only []
    rw [if_pos (show (58#8 : Byte) = Endpoint.ch ':' from rfl), portOf_decimal]
    rfl

theorem grammar_port (p : BitVec 16) (hp : p ≠ 0) : Endpoint.grammar (ports p p) = some (.net .none (.number (decimal p.toNat))) := by
  rw [ports_same, if_neg hp]
  unfold Endpoint.grammar
  rw [List.dropWhile_cons_of_neg (by decide)]
  simp only []
  rw [if_neg (by decide), if_pos (show (58#8 : Byte) = Endpoint.ch ':' from rfl), portOf_decimal]
  rfl

theorem port_value (p : BitVec 16) : BitVec.ofNat 16 (Endpoint.value (decimal p.toNat)) = p := by
  rw [value_decimal, BitVec.ofNat_toNat, BitVec.setWidth_eq]

/-! ## A printer -/

/-- The digits of an address. -/
def hexDigit (v : Nat) : Byte := if v < 10 then BitVec.ofNat 8 (48 + v) else BitVec.ofNat 8 (87 + v)

/-- All digits of an address, the last one first. -/
def hexadecimal (a : BitVec 128) : List Byte := (List.range 32).map fun i => hexDigit (a.toNat / 16 ^ i % 16)

theorem hexDigit_char {v : Nat} (h : v < 16) : Endpoint.addressChar (hexDigit v) = true := by
  have : ∀ v : Fin 16, Endpoint.addressChar (hexDigit v.val) = true := by decide
  exact this ⟨v, h⟩

theorem hexDigit_inj {v w : Nat} (h : v < 16) (h' : w < 16) (e : hexDigit v = hexDigit w) : v = w := by
  have : ∀ v w : Fin 16, hexDigit v.val = hexDigit w.val → v = w := by decide
  exact Fin.mk.inj (this ⟨v, h⟩ ⟨w, h'⟩ e)

theorem digits_eq {a b : Nat} : ∀ n, (∀ i, i < n → a / 16 ^ i % 16 = b / 16 ^ i % 16) → a % 16 ^ n = b % 16 ^ n := by
  intro n
  induction n with
  | zero => intro _; simp [Nat.mod_one]
  | succ n ih =>
    intro h
    rw [Nat.pow_succ, Nat.mod_mul, Nat.mod_mul, ih fun i hi => h i (by omega), h n (by omega)]

theorem hexadecimal_printer : Printer hexadecimal := by
  refine ⟨fun a c hc => ?_, fun a => by simp [hexadecimal], fun a b h => ?_⟩
  · obtain ⟨i, -, rfl⟩ := List.mem_map.1 hc
    exact hexDigit_char (by omega)
  · have : ∀ i, i < 32 → a.toNat / 16 ^ i % 16 = b.toNat / 16 ^ i % 16 := fun i hi => by
      have := congrArg (·[i]?) h
      simp only [hexadecimal, List.getElem?_map, List.getElem?_range hi, Option.map_some, Option.some.injEq] at this
      exact hexDigit_inj (by omega) (by omega) this
    have := digits_eq 32 this
    rw [Nat.mod_eq_of_lt (by have := a.isLt; omega), Nat.mod_eq_of_lt (by have := b.isLt; omega)] at this
    exact BitVec.eq_of_toNat_eq this

end Diminuto.EndpointText
