import Verif.EndpointTextSpec
import Verif.NumberProps
import Verif.IpclProps
import Verif.EndpointProps

/-!
# Lemmas for the conversion of endpoints to strings
-/

namespace Diminuto.EndpointText

open Endpoint (Result Kind)
open Number (decimal text port2string)

theorem decimal_inj {m n : Nat} (h : decimal m = decimal n) : m = n :=
  (Number.number_unique (Number.decimal_reads m) (h ▸ Number.decimal_reads n)).2.1

theorem decimal_ne (n : Nat) : decimal n ≠ [] := Number.denotes_ne (Number.decimal_denotes n)

theorem decimal_is (n : Nat) : Decimal (decimal n) n := by
  refine ⟨Number.decimal_denotes n, Number.decimal_head n, ?_⟩
  rintro rfl
  simp [decimal]

theorem decimal_unique {s : List Byte} {n : Nat} (h : Decimal s n) : s = decimal n := by
  obtain ⟨h1, h2, h3⟩ := h
  induction h1 with
  | one hd =>
    rename_i b v
    obtain ⟨hv, h | h⟩ := hd
    · rw [Number.decimal_small h.1]
      congr 1
      apply BitVec.eq_of_toNat_eq
      rw [h.2, BitVec.toNat_ofNat]
      omega
    · omega
  | more h1 hd ih =>
    rename_i s b n v
    have hv : v < 10 := hd.1
    have hb : b = BitVec.ofNat 8 (48 + v) := by
      obtain ⟨-, h | h⟩ := hd
      · apply BitVec.eq_of_toNat_eq
        rw [h.2, BitVec.toNat_ofNat]
        omega
      · omega
    have hs := Number.denotes_ne h1
    have hn : n ≠ 0 := by
      intro e
      subst e
      by_cases hv0 : v = 0
      · have := h3 (by omega)
        obtain ⟨c, r, rfl⟩ := List.exists_cons_of_ne_nil hs
        simp at this
      · -- a leading zero
        have hh := h2 (by omega)
        have : s.head? = some 48#8 := by
          clear ih hh h2 h3 hs
          have : ∀ {s : List Byte} {m : Nat}, Number.Denotes 10 s m → m = 0 → s.head? = some 48#8 := by
            intro s m h
            induction h with
            | one hd =>
              rintro rfl
              obtain ⟨-, h | h⟩ := hd
              · rw [List.head?_cons]
                congr 1
                exact BitVec.eq_of_toNat_eq h.2
              · omega
            | more h1 hd ih =>
              intro e
              have := ih (by omega)
              rw [List.head?_append, this]
              rfl
          exact this h1 rfl
        apply hh
        rw [List.head?_append, this]
        rfl
    rw [Number.decimal_large (by omega), show (n * 10 + v) / 10 = n by omega, show (n * 10 + v) % 10 = v by omega, ← hb]
    congr 1
    apply ih
    · intro _ hh
      apply h2 (by omega)
      rw [List.head?_append, hh]
      rfl
    · exact fun e => absurd e hn

theorem decimal_chars (n : Nat) : ∀ c ∈ decimal n, Endpoint.isDigit c = true := by
  intro c hc
  have := Number.decimal_range n c hc
  unfold Endpoint.isDigit
  rw [Bool.and_eq_true]
  exact ⟨decide_eq_true (show (48 : Nat) ≤ c.toNat from this.1), decide_eq_true (show c.toNat ≤ (57 : Nat) from this.2)⟩

theorem decimal_length_byte {n : Nat} (h : n < 256) : (decimal n).length ≤ 3 := Number.decimal_length 2 n (by omega)

theorem dotted_is (a : BitVec 32) : Dotted (dotted a) a := by
  have := a.isLt
  refine ⟨a.toNat / 2 ^ 24, a.toNat / 2 ^ 16 % 256, a.toNat / 2 ^ 8 % 256, a.toNat % 256, _, _, _, _, by omega, by omega, by omega, by omega,
    decimal_is _, decimal_is _, decimal_is _, decimal_is _, ?_⟩
  unfold dotted
  simp

theorem dotted_unique {s : List Byte} {a : BitVec 32} (h : Dotted s a) : s = dotted a := by
  obtain ⟨x0, x1, x2, x3, s0, s1, s2, s3, ha, h1, h2, h3, d0, d1, d2, d3, rfl⟩ := h
  have := a.isLt
  unfold dotted
  rw [show a.toNat / 2 ^ 24 = x0 by omega, show a.toNat / 2 ^ 16 % 256 = x1 by omega, show a.toNat / 2 ^ 8 % 256 = x2 by omega, show a.toNat % 256 = x3 by omega,
    ← decimal_unique d0, ← decimal_unique d1, ← decimal_unique d2, ← decimal_unique d3]
  simp

theorem append_cons_inj {p : Byte → Bool} {s t u v : List Byte} {c d : Byte} (hs : ∀ b ∈ s, p b = true) (ht : ∀ b ∈ t, p b = true) (hc : p c = false) (hd : p d = false)
    (h : s ++ c :: u = t ++ d :: v) : s = t ∧ c = d ∧ u = v := by
  induction s generalizing t with
  | nil =>
    cases t with
    | nil => simp only [List.nil_append, List.cons.injEq] at h; exact ⟨rfl, h⟩
    | cons b t =>
      simp only [List.nil_append, List.cons_append, List.cons.injEq] at h
      have := ht b (List.mem_cons_self ..)
      rw [← h.1, hc] at this
      cases this
  | cons a s ih =>
    cases t with
    | nil =>
      simp only [List.nil_append, List.cons_append, List.cons.injEq] at h
      have := hs a (List.mem_cons_self ..)
      rw [h.1, hd] at this
      cases this
    | cons b t =>
      simp only [List.cons_append, List.cons.injEq] at h
      obtain ⟨h1, h2, h3⟩ := ih (fun b hb => hs b (List.mem_cons_of_mem _ hb)) (fun b hb => ht b (List.mem_cons_of_mem _ hb)) h.2
      exact ⟨by rw [h.1, h1], h2, h3⟩

theorem dotted_inj {a b : BitVec 32} (h : dotted a = dotted b) : a = b := by
  have ha := a.isLt
  have hb := b.isLt
  unfold dotted at h
  have hdot : Endpoint.isDigit 46#8 = false := by decide
  obtain ⟨h0, -, h⟩ := append_cons_inj (decimal_chars _) (decimal_chars _) hdot hdot h
  obtain ⟨h1, -, h⟩ := append_cons_inj (decimal_chars _) (decimal_chars _) hdot hdot h
  obtain ⟨h2, -, h⟩ := append_cons_inj (decimal_chars _) (decimal_chars _) hdot hdot h
  have h0 := decimal_inj h0
  have h1 := decimal_inj h1
  have h2 := decimal_inj h2
  have h3 := decimal_inj h
  apply BitVec.eq_of_toNat_eq
  omega

theorem dotted_chars (a : BitVec 32) : ∀ c ∈ dotted a, Endpoint.digitDot c = true := by
  intro c hc
  have hd : ∀ n, c ∈ decimal n → Endpoint.digitDot c = true := fun n h => by
    unfold Endpoint.digitDot
    rw [decimal_chars n c h]
    rfl
  unfold dotted at hc
  simp only [List.mem_append, List.mem_cons] at hc
  rcases hc with h | h | h | h | h | h | h
  · exact hd _ h
  · subst h; decide
  · exact hd _ h
  · subst h; decide
  · exact hd _ h
  · subst h; decide
  · exact hd _ h

theorem dotted_length (a : BitVec 32) : (dotted a).length ≤ 15 := by
  have := a.isLt
  unfold dotted
  simp only [List.length_append, List.length_cons]
  have h0 := decimal_length_byte (n := a.toNat / 2 ^ 24) (by omega)
  have h1 := decimal_length_byte (n := a.toNat / 2 ^ 16 % 256) (by omega)
  have h2 := decimal_length_byte (n := a.toNat / 2 ^ 8 % 256) (by omega)
  have h3 := decimal_length_byte (n := a.toNat % 256) (by omega)
  omega

theorem dotted_head (a : BitVec 32) : ∃ c r, dotted a = c :: r ∧ Endpoint.isDigit c = true := by
  unfold dotted
  obtain ⟨c, r, h⟩ := List.exists_cons_of_ne_nil (decimal_ne (a.toNat / 2 ^ 24))
  rw [h]
  exact ⟨c, _, rfl, decimal_chars _ c (by rw [h]; exact List.mem_cons_self ..)⟩

theorem nul_digitDot {s : List Byte} (h : ∀ c ∈ s, Endpoint.digitDot c = true) : 0#8 ∉ s := fun h0 => absurd (h _ h0) (by decide)

theorem nul_address {s : List Byte} (h : ∀ c ∈ s, Endpoint.addressChar c = true) : 0#8 ∉ s := fun h0 => absurd (h _ h0) (by decide)

theorem zeros_length (n : Nat) : (zeros n).length = n := List.length_replicate

theorem text_dotnotation (a : BitVec 32) : text (dotnotation a (zeros 16)) = dotted a := by
  unfold dotnotation
  rw [zeros_length, if_pos (by decide)]
  have h := Ipcl.strncpyz_holds (n := 16) (by decide) (nul_digitDot (dotted_chars a))
  rw [List.take_of_length_le (dotted_length a)] at h
  exact Ipcl.holds_text h

theorem text_colonnotation {ntop : BitVec 128 → List Byte} (hn : Printer ntop) (a : BitVec 128) : text (colonnotation ntop a (zeros 40)) = ntop a := by
  unfold colonnotation
  rw [zeros_length, if_pos (by decide)]
  have h := Ipcl.strncpyz_holds (n := 40) (by decide) (nul_address (hn.chars a))
  rw [List.take_of_length_le (hn.length a)] at h
  exact Ipcl.holds_text h

theorem text_port (p : BitVec 16) : text (port2string p (zeros 6)) = decimal p.toNat := by
  obtain ⟨-, h, -, -, hl⟩ := Number.number_port2string p (zeros 6)
  rw [h (by decide), zeros_length, List.take_of_length_le hl]

/-- The ports. -/
def ports (tcp udp : BitVec 16) : List Byte :=
  if tcp = 0 ∧ udp = 0 then [] else if tcp = udp then 58#8 :: decimal tcp.toNat else 58#8 :: decimal tcp.toNat ++ 58#8 :: decimal udp.toNat

theorem ports_is (tcp udp : BitVec 16) : Ports (ports tcp udp) tcp udp := by
  unfold ports
  by_cases h : tcp = 0 ∧ udp = 0
  · rw [if_pos h]
    exact .inl ⟨h.1, h.2, rfl⟩
  · rw [if_neg h]
    by_cases e : tcp = udp
    · rw [if_pos e]
      refine .inr (.inl ⟨fun h0 => h ⟨h0, e ▸ h0⟩, e, _, decimal_is _, rfl⟩)
    · rw [if_neg e]
      exact .inr (.inr ⟨e, _, _, decimal_is _, decimal_is _, rfl⟩)

theorem ports_unique {s : List Byte} {tcp udp : BitVec 16} (h : Ports s tcp udp) : s = ports tcp udp := by
  unfold ports
  rcases h with ⟨rfl, rfl, rfl⟩ | ⟨h, rfl, t, ht, rfl⟩ | ⟨h, t, u, ht, hu, rfl⟩
  · rw [if_pos ⟨rfl, rfl⟩]
  · rw [if_neg (fun hh => h hh.1), if_pos rfl, decimal_unique ht]
  · rw [if_neg (fun hh => h (hh.1.trans hh.2.symm)), if_neg h, decimal_unique ht, decimal_unique hu]

theorem ports_length (tcp udp : BitVec 16) : (ports tcp udp).length ≤ 12 := by
  have h1 := (Number.number_port2string tcp []).2.2.2.2
  have h2 := (Number.number_port2string udp []).2.2.2.2
  unfold ports
  split
  · simp
  · split
    · simp only [List.length_cons]; omega
    · simp only [List.length_append, List.length_cons]; omega

/-- Digits and colons. -/
def digitColon (c : Byte) : Bool := Endpoint.isDigit c || c = 58#8

theorem ports_chars (tcp udp : BitVec 16) : ∀ c ∈ ports tcp udp, digitColon c = true := by
  have hd : ∀ n, ∀ c ∈ decimal n, digitColon c = true := fun n c h => by
    unfold digitColon
    rw [decimal_chars n c h]
    rfl
  intro c hc
  unfold ports at hc
  split at hc
  · cases hc
  · split at hc
    · rcases List.mem_cons.1 hc with h | h
      · subst h; decide
      · exact hd _ c h
    · simp only [List.mem_append, List.mem_cons] at hc
      rcases hc with (h | h) | h | h
      · subst h; decide
      · exact hd _ c h
      · subst h; decide
      · exact hd _ c h

theorem ports_shape (tcp udp : BitVec 16) : ports tcp udp = [] ∨ ∃ r, ports tcp udp = 58#8 :: r := by
  unfold ports
  split
  · exact .inl rfl
  · split
    · exact .inr ⟨_, rfl⟩
    · exact .inr ⟨_, rfl⟩

theorem eq_of_decimal {p q : BitVec 16} (h : decimal p.toNat = decimal q.toNat) : p = q := BitVec.eq_of_toNat_eq (decimal_inj h)

theorem ports_inj {t u t' u' : BitVec 16} (h : ports t u = ports t' u') : t = t' ∧ u = u' := by
  have hcol : Endpoint.isDigit 58#8 = false := by decide
  have hne : ∀ n m : Nat, ∀ r, decimal n ≠ decimal m ++ 58#8 :: r := fun n m r e => by
    have := decimal_chars n 58#8 (by rw [e]; simp)
    rw [hcol] at this
    cases this
  unfold ports at h
  split at h
  · rename_i h1
    split at h
    · rename_i h2
      exact ⟨h1.1.trans h2.1.symm, h1.2.trans h2.2.symm⟩
    · split at h <;> cases h
  · split at h
    · rename_i h1 h2
      split at h
      · cases h
      · split at h
        · rename_i h3 h4
          simp only [List.cons.injEq, true_and] at h
          have := eq_of_decimal h
          exact ⟨this, by rw [← h2, ← h4]; exact this⟩
        · simp only [List.cons_append, List.cons.injEq, true_and] at h
          exact absurd h (hne _ _ _)
    · rename_i h1 h2
      split at h
      · cases h
      · split at h
        · simp only [List.cons_append, List.cons.injEq, true_and] at h
          exact absurd h.symm (hne _ _ _)
        · simp only [List.cons_append, List.cons.injEq, true_and] at h
          obtain ⟨h3, -, h4⟩ := append_cons_inj (decimal_chars _) (decimal_chars _) hcol hcol h
          exact ⟨eq_of_decimal h3, eq_of_decimal h4⟩

/-- What is printed. -/
def shown (ntop : BitVec 128 → List Byte) (e : Result) : List Byte :=
  match e.type with
  | .ipv4 => (if e.ipv4 = 0 then [] else dotted e.ipv4) ++ ports e.tcp e.udp ++ (if e.ipv6 = 0 then [] else [44#8, 91#8] ++ ntop e.ipv6 ++ [93#8] ++ ports e.tcp e.udp)
  | .ipv6 => (if e.ipv6 = 0 then [] else [91#8] ++ ntop e.ipv6 ++ [93#8]) ++ ports e.tcp e.udp ++ (if e.ipv4 = 0 then [] else [44#8] ++ dotted e.ipv4 ++ ports e.tcp e.udp)
  | _ => []

theorem shows_iff (ntop : BitVec 128 → List Byte) (e : Result) (he : e.type = .ipv4 ∨ e.type = .ipv6) (s : List Byte) : Shows ntop s e ↔ s = shown ntop e := by
  unfold shown
  constructor
  · rintro ⟨p, hp, d, hd, h | h⟩
    · rw [h.1, h.2, ports_unique hp, dotted_unique hd]
    · rw [h.1, h.2, ports_unique hp, dotted_unique hd]
  · intro h
    refine ⟨_, ports_is e.tcp e.udp, _, dotted_is e.ipv4, ?_⟩
    rcases he with he | he
    · rw [he] at h
      exact .inl ⟨he, h⟩
    · rw [he] at h
      exact .inr ⟨he, h⟩

theorem shown_length {ntop : BitVec 128 → List Byte} (hn : Printer ntop) (e : Result) : (shown ntop e).length ≤ 81 := by
  have h4 := dotted_length e.ipv4
  have h6 := hn.length e.ipv6
  have hp := ports_length e.tcp e.udp
  unfold shown
  split
  · simp only [List.length_append]
    have h1 : (if e.ipv4 = 0 then [] else dotted e.ipv4 : List Byte).length ≤ 15 := by split <;> simp [h4]
    have h2 : (if e.ipv6 = 0 then [] else [44#8, 91#8] ++ ntop e.ipv6 ++ [93#8] ++ ports e.tcp e.udp : List Byte).length ≤ 54 := by
      split
      · simp
      · simp only [List.length_append, List.length_cons, List.length_nil]; omega
    omega
  · simp only [List.length_append]
    have h1 : (if e.ipv6 = 0 then [] else [91#8] ++ ntop e.ipv6 ++ [93#8] : List Byte).length ≤ 41 := by
      split
      · simp
      · simp only [List.length_append, List.length_cons, List.length_nil]; omega
    have h2 : (if e.ipv4 = 0 then [] else [44#8] ++ dotted e.ipv4 ++ ports e.tcp e.udp : List Byte).length ≤ 28 := by
      split
      · simp
      · simp only [List.length_append, List.length_cons, List.length_nil]; omega
    omega
  · simp

theorem digitDot_nul {c : Byte} (h : c = 0#8) : Endpoint.digitDot c = false := by subst h; decide

theorem shown_nul {ntop : BitVec 128 → List Byte} (hn : Printer ntop) (e : Result) : 0#8 ∉ shown ntop e := by
  have h4 := nul_digitDot (dotted_chars e.ipv4)
  have h6 := nul_address (hn.chars e.ipv6)
  have hp : 0#8 ∉ ports e.tcp e.udp := fun h => absurd (ports_chars _ _ _ h) (by decide)
  unfold shown
  split
  · intro h
    simp only [List.mem_append] at h
    rcases h with (h | h) | h
    · split at h
      · cases h
      · exact h4 h
    · exact hp h
    · split at h
      · cases h
      · simp only [List.mem_append] at h
        rcases h with ((h | h) | h) | h
        · exact absurd h (by decide)
        · exact h6 h
        · exact absurd h (by decide)
        · exact hp h
  · intro h
    simp only [List.mem_append] at h
    rcases h with (h | h) | h
    · split at h
      · cases h
      · simp only [List.mem_append] at h
        rcases h with (h | h) | h
        · exact absurd h (by decide)
        · exact h6 h
        · exact absurd h (by decide)
    · exact hp h
    · split at h
      · cases h
      · simp only [List.mem_append] at h
        rcases h with (h | h) | h
        · exact absurd h (by decide)
        · exact h4 h
        · exact hp h
  · simp

theorem snprintf_holds {buffer s : List Byte} (hb : buffer ≠ []) (h0 : 0#8 ∉ s) : (snprintf buffer s).length = buffer.length ∧
    Ipcl.Holds ((snprintf buffer s).set (buffer.length - 1) 0#8) (s.take (buffer.length - 1)) := by
  have hpos := List.length_pos_iff.2 hb
  unfold snprintf
  simp only []
  have hl : (s.take (buffer.length - 1)).length ≤ buffer.length - 1 := by rw [List.length_take]; omega
  have h0 : 0#8 ∉ s.take (buffer.length - 1) := fun h => h0 (List.mem_of_mem_take h)
  generalize s.take (buffer.length - 1) = t at hl h0
  constructor
  · rw [List.length_append, List.length_cons, List.length_drop]
    omega
  · refine ⟨h0, ?_⟩
    rw [List.set_append_right _ _ hl]
    cases hk : buffer.length - 1 - t.length with
    | zero => exact ⟨_, rfl⟩
    | succ k => exact ⟨_, rfl⟩

theorem printed4 {ntop : BitVec 128 → List Byte} (hn : Printer ntop) (realpath : List Byte → Option (List Byte)) (e : Result) (he : e.type = .ipv4 ∨ e.type = .ipv6)
    (buffer : List Byte) (hb : buffer ≠ []) :
    endpoint2string realpath ntop e buffer = some ((snprintf (buffer.set 0 0#8) (shown ntop e)).set (buffer.length - 1) 0#8) := by
  have hpos := List.length_pos_iff.2 hb
  unfold endpoint2string
  rw [if_pos hpos]
  simp only [text_dotnotation, text_colonnotation hn, text_port, List.length_set]
  unfold shown ports
  rcases he with he | he
  · simp only [he, Option.map_some]
    congr 3
    by_cases h4 : e.ipv4 = 0 <;> by_cases h6 : e.ipv6 = 0 <;> by_cases ht : e.tcp = 0 <;> by_cases hu : e.udp = 0 <;> by_cases htu : e.tcp = e.udp <;>
      simp_all
  · simp only [he, Option.map_some]
    congr 3
    by_cases h4 : e.ipv4 = 0 <;> by_cases h6 : e.ipv6 = 0 <;> by_cases ht : e.tcp = 0 <;> by_cases hu : e.udp = 0 <;> by_cases htu : e.tcp = e.udp <;>
      simp_all

end Diminuto.EndpointText
