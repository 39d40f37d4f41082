import Verif.PingSpec

/-!
# Lemmas: the internet checksum and ping
-/

namespace Diminuto.Ping

/-- The sum of the words as the host reads them. -/
def hsum (le : Bool) : List Byte → Nat
  | b0 :: b1 :: rest => (word le b0 b1).toNat + hsum le rest
  | [b0] => (word le b0 0#8).toNat
  | [] => 0

theorem word_le (a b : Byte) : (word true a b).toNat = 256 * b.toNat + a.toNat := by
  have : a.toNat < 256 := a.isLt
  simp only [word, if_true, BitVec.toNat_append, Nat.shiftLeft_eq]
  rw [← Nat.shiftLeft_eq, ← Nat.shiftLeft_add_eq_or_of_lt (by omega), Nat.shiftLeft_eq]
  omega

theorem word_be (a b : Byte) : (word false a b).toNat = 256 * a.toNat + b.toNat := by
  have : b.toNat < 256 := b.isLt
  simp only [word, BitVec.toNat_append, Bool.false_eq_true, if_false]
  rw [← Nat.shiftLeft_add_eq_or_of_lt (by omega), Nat.shiftLeft_eq]
  omega

theorem sum_toNat (le : Bool) (bs : List Byte) : ∀ acc : BitVec 32, (sum le bs acc).toNat = (acc.toNat + hsum le bs) % 2 ^ 32 := by
  induction bs using words.induct with
  | case1 b0 b1 rest ih =>
    intro acc
    have := (word le b0 b1).isLt
    rw [sum, ih, hsum, BitVec.toNat_add, BitVec.toNat_setWidth]
    omega
  | case2 b0 =>
    intro acc
    have := (word le b0 0#8).isLt
    rw [sum, hsum, BitVec.toNat_add, BitVec.toNat_setWidth]
    omega
  | case3 =>
    intro acc
    have := acc.isLt
    simp only [sum, hsum]
    omega

theorem hsum_le (le : Bool) (bs : List Byte) : hsum le bs ≤ (bs.length + 1) / 2 * 65535 := by
  induction bs using words.induct with
  | case1 b0 b1 rest ih =>
    have := (word le b0 b1).isLt
    rw [hsum]
    simp only [List.length_cons]
    have e : (rest.length + 1 + 1 + 1) / 2 = (rest.length + 1) / 2 + 1 := by omega
    rw [e]
    omega
  | case2 b0 =>
    have := (word le b0 0#8).isLt
    simp [hsum]
    omega
  | case3 => simp [hsum]

/-- The representative of a sum. -/
def norm (n : Nat) : Nat := if n = 0 then 0 else (n - 1) % 65535 + 1

theorem norm_lt (n : Nat) : norm n ≤ 65535 := by
  unfold norm
  split <;> omega

theorem norm_unique {n r : Nat} (h : r % 65535 = n % 65535) (hr : r ≤ 65535) (h0 : r = 0 ↔ n = 0) : r = norm n := by
  unfold norm
  split
  · omega
  · omega

theorem fold_step (acc : BitVec 32) : ((acc &&& 0xFFFF#32) + ((acc >>> 16).setWidth 16 : BitVec 16).setWidth 32).toNat =
    acc.toNat % 65536 + acc.toNat / 65536 := by
  have := acc.isLt
  have e : (acc &&& 0xFFFF#32).toNat = acc.toNat % 65536 := by
    rw [BitVec.toNat_and]
    exact Nat.and_two_pow_sub_one_eq_mod acc.toNat 16
  rw [BitVec.toNat_add, e, BitVec.toNat_setWidth, BitVec.toNat_setWidth, BitVec.toNat_ushiftRight, Nat.shiftRight_eq_div_pow]
  clear e
  generalize acc.toNat = n at *
  simp only [Nat.reducePow] at *
  have h1 : n / 65536 < 65536 := by omega
  rw [Nat.mod_eq_of_lt h1, Nat.mod_eq_of_lt (a := n / 65536) (by omega), Nat.mod_eq_of_lt (by omega)]

theorem fold_zero (acc : BitVec 32) : ((acc >>> 16).setWidth 16 : BitVec 16) = 0#16 ↔ acc.toNat < 65536 := by
  have := acc.isLt
  rw [← BitVec.toNat_inj, BitVec.toNat_setWidth, BitVec.toNat_ushiftRight, Nat.shiftRight_eq_div_pow]
  simp only [BitVec.toNat_ofNat]
  omega

theorem fold_eq (acc : BitVec 32) : ∃ r, fold 3 acc = some r ∧ r.toNat = norm acc.toNat := by
  have hlt := acc.isLt
  by_cases h1 : ((acc >>> 16).setWidth 16 : BitVec 16) = 0#16
  · refine ⟨acc, by simp [fold, h1], ?_⟩
    rw [fold_zero] at h1
    exact norm_unique rfl (by omega) (by omega)
  · have n1 := h1
    rw [fold_zero] at n1
    have e1 := fold_step acc
    generalize hb : (acc &&& 0xFFFF#32) + ((acc >>> 16).setWidth 16 : BitVec 16).setWidth 32 = b at e1
    by_cases h2 : ((b >>> 16).setWidth 16 : BitVec 16) = 0#16
    · refine ⟨b, by simp [fold, h1, h2, hb], ?_⟩
      rw [fold_zero] at h2
      exact norm_unique (by omega) (by omega) (by omega)
    · have n2 := h2
      rw [fold_zero] at n2
      have e2 := fold_step b
      generalize hc : (b &&& 0xFFFF#32) + ((b >>> 16).setWidth 16 : BitVec 16).setWidth 32 = c at e2
      have h3 : ((c >>> 16).setWidth 16 : BitVec 16) = 0#16 := by
        rw [fold_zero]
        omega
      refine ⟨c, by simp [fold, h1, h2, h3, hb, hc], ?_⟩
      rw [fold_zero] at h3
      exact norm_unique (by omega) (by omega) (by omega)

theorem checksum_eq (le : Bool) (bs : List Byte) :
    ∃ c, checksum le bs = some c ∧ c.toNat = 65535 - norm (hsum le bs % 2 ^ 32) := by
  obtain ⟨r, e, hr⟩ := fold_eq (sum le bs 0#32)
  refine ⟨_, by rw [checksum, e]; rfl, ?_⟩
  rw [sum_toNat] at hr
  simp only [BitVec.toNat_ofNat, Nat.zero_mod, Nat.zero_add] at hr
  have := norm_lt (hsum le bs % 2 ^ 32)
  rw [BitVec.toNat_setWidth, BitVec.toNat_not, hr]
  omega

theorem onesAdd_norm {a b : Nat} (ha : a ≤ 65535) (hb : b ≤ 65535) :
    onesAdd a b ≤ 65535 ∧ onesAdd a b % 65535 = (a + b) % 65535 ∧ (onesAdd a b = 0 ↔ a + b = 0) := by
  unfold onesAdd
  split <;> omega

theorem words_le {bs : List Byte} : ∀ w ∈ words bs, w ≤ 65535 := by
  induction bs using words.induct with
  | case1 b0 b1 rest ih =>
    intro w hw
    simp only [words, List.mem_cons] at hw
    rcases hw with rfl | hw
    · omega
    · exact ih w hw
  | case2 b0 =>
    intro w hw
    simp only [words, List.mem_singleton] at hw
    omega
  | case3 => simp [words]

theorem foldl_onesAdd (l : List Nat) (h : ∀ w ∈ l, w ≤ 65535) : ∀ a, a ≤ 65535 → l.foldl onesAdd a = norm (a + l.sum) := by
  induction l with
  | nil =>
    intro a ha
    exact norm_unique (by simp) ha (by simp)
  | cons w l ih =>
    intro a ha
    obtain ⟨h1, h2, h3⟩ := onesAdd_norm ha (h w (by simp))
    rw [List.foldl_cons, ih (fun x hx => h x (by simp [hx])) _ h1, List.sum_cons]
    unfold norm
    split <;> split <;> omega

theorem rfc_eq (bs : List Byte) : rfc1071 bs = 65535 - norm (words bs).sum := by
  rw [rfc1071, foldl_onesAdd _ words_le 0 (by omega), Nat.zero_add]

theorem hsum_be (bs : List Byte) : hsum false bs = (words bs).sum := by
  induction bs using words.induct with
  | case1 b0 b1 rest ih => simp [hsum, words, ih, word_be]
  | case2 b0 => simp [hsum, words, word_be]
  | case3 => rfl

theorem hsum_swap (bs : List Byte) : 256 * hsum true bs % 65535 = (words bs).sum % 65535 ∧ (hsum true bs = 0 ↔ (words bs).sum = 0) := by
  induction bs using words.induct with
  | case1 b0 b1 rest ih =>
    simp only [hsum, words, List.sum_cons, word_le]
    omega
  | case2 b0 =>
    simp only [hsum, words, List.sum_cons, List.sum_nil, word_le]
    simp only [BitVec.toNat_ofNat]
    omega
  | case3 => simp [hsum, words]

theorem store16_network (le : Bool) (w : BitVec 16) :
    network (store16 le w) = if le then 256 * (w.toNat % 256) + w.toNat / 256 else w.toNat := by
  have := w.isLt
  cases le
  · simp only [store16, Bool.false_eq_true, if_false, network, BitVec.extractLsb'_toNat, Nat.shiftRight_eq_div_pow]
    omega
  · simp only [store16, if_true, network, BitVec.extractLsb'_toNat, Nat.shiftRight_eq_div_pow]
    omega

theorem hsum_append (le : Bool) (a b : List Byte) (h : a.length % 2 = 0) : hsum le (a ++ b) = hsum le a + hsum le b := by
  induction a using words.induct with
  | case1 b0 b1 rest ih =>
    simp only [List.length_cons] at h
    simp only [List.cons_append, hsum, ih (by omega)]
    omega
  | case2 b0 => simp at h
  | case3 => simp [hsum]

theorem hsum_store (le : Bool) (c : BitVec 16) (b : List Byte) : hsum le (store16 le c ++ b) = c.toNat + hsum le b := by
  have := c.isLt
  cases le
  · simp only [store16, Bool.false_eq_true, if_false, List.cons_append, List.nil_append, hsum, word_be, BitVec.extractLsb'_toNat,
      Nat.shiftRight_eq_div_pow]
    omega
  · simp only [store16, if_true, List.cons_append, List.nil_append, hsum, word_le, BitVec.extractLsb'_toNat, Nat.shiftRight_eq_div_pow]
    omega

theorem store16_length (le : Bool) (c : BitVec 16) : (store16 le c).length = 2 := by
  cases le <;> rfl

theorem checksum_small {le : Bool} {bs : List Byte} (h : bs.length ≤ 131074) :
    ∃ c, checksum le bs = some c ∧ c.toNat = 65535 - norm (hsum le bs) := by
  obtain ⟨c, e, hc⟩ := checksum_eq le bs
  refine ⟨c, e, ?_⟩
  have hle := hsum_le le bs
  have : (bs.length + 1) / 2 ≤ 65537 := by omega
  have := Nat.mul_le_mul_right 65535 this
  rw [Nat.mod_eq_of_lt (by omega)] at hc
  exact hc

theorem norm_facts (n : Nat) : norm n % 65535 = n % 65535 ∧ (norm n = 0 ↔ n = 0) ∧ norm n ≤ 65535 := by
  refine ⟨?_, ?_, norm_lt n⟩ <;> (unfold norm; split <;> omega)

theorem load_store64 (le : Bool) (t : BitVec 64) (l : List Byte) : load64 le (store64 le t ++ l) = some t := by
  have : ∀ t : BitVec 64, t.extractLsb' 56 8 ++ t.extractLsb' 48 8 ++ t.extractLsb' 40 8 ++ t.extractLsb' 32 8 ++
      t.extractLsb' 24 8 ++ t.extractLsb' 16 8 ++ t.extractLsb' 8 8 ++ t.extractLsb' 0 8 = t := by
    intro t
    rw [BitVec.extractLsb'_append_extractLsb'_eq_extractLsb' (by rfl), BitVec.extractLsb'_append_extractLsb'_eq_extractLsb' (by rfl),
      BitVec.extractLsb'_append_extractLsb'_eq_extractLsb' (by rfl), BitVec.extractLsb'_append_extractLsb'_eq_extractLsb' (by rfl),
      BitVec.extractLsb'_append_extractLsb'_eq_extractLsb' (by rfl), BitVec.extractLsb'_append_extractLsb'_eq_extractLsb' (by rfl),
      BitVec.extractLsb'_append_extractLsb'_eq_extractLsb' (by rfl)]
    exact BitVec.extractLsb'_eq_self
  cases le
  · simp only [store64, Bool.false_eq_true, if_false, load64, List.reverse_cons, List.reverse_nil, List.nil_append, List.cons_append]
    rw [this]
  · simp only [store64, if_true, load64, List.cons_append]
    rw [this]

theorem load_store16 (le : Bool) (w : BitVec 16) (l : List Byte) : load16 le (store16 le w ++ l) = some w := by
  have hw := w.isLt
  cases le
  · simp only [store16, Bool.false_eq_true, if_false, load16, List.cons_append, Option.some.injEq]
    apply BitVec.eq_of_toNat_eq
    simp only [word_be, BitVec.extractLsb'_toNat, Nat.shiftRight_eq_div_pow]
    omega
  · simp only [store16, if_true, load16, List.cons_append, Option.some.injEq]
    apply BitVec.eq_of_toNat_eq
    simp only [word_le, BitVec.extractLsb'_toNat, Nat.shiftRight_eq_div_pow]
    omega

theorem store64_length (le : Bool) (t : BitVec 64) : (store64 le t).length = 8 := by
  cases le <;> rfl

theorem hsum_zeros (le : Bool) (n : Nat) : hsum le (List.replicate n 0#8) = 0 := by
  have hw : word le 0#8 0#8 = 0#16 := by cases le <;> rfl
  induction n using Nat.strongRecOn with
  | _ n ih =>
    match n with
    | 0 => rfl
    | 1 => simp [hsum, hw]
    | n + 2 =>
      rw [List.replicate_succ, List.replicate_succ, hsum, ih n (by omega), hw]
      rfl

theorem offset_eq (b : Byte) : (b &&& 0x0F#8).toNat <<< 2 = 4 * (b.toNat % 16) := by
  rw [BitVec.toNat_and, Nat.shiftLeft_eq]
  have := Nat.and_two_pow_sub_one_eq_mod b.toNat 4
  simp only [Nat.reducePow, Nat.reduceSub] at this
  simp only [BitVec.toNat_ofNat, Nat.reducePow, Nat.reduceMod, this]
  omega

/-- The buffer after `recvfrom`. -/
def bufferOf (datagram : List Byte) : List Byte := datagram.take SIZE ++ List.replicate (SIZE - datagram.length) 0#8

theorem bufferOf_length (d : List Byte) : (bufferOf d).length = SIZE := by
  simp only [bufferOf, List.length_append, List.length_take, List.length_replicate]
  omega

theorem load16_some {le : Bool} {l : List Byte} (h : 2 ≤ l.length) : ∃ w, load16 le l = some w := by
  match l, h with
  | b0 :: b1 :: _, _ => exact ⟨_, rfl⟩

theorem load64_some {le : Bool} {l : List Byte} (h : 8 ≤ l.length) : ∃ w, load64 le l = some w := by
  match l, h with
  | b0 :: b1 :: b2 :: b3 :: b4 :: b5 :: b6 :: b7 :: _, _ => cases le <;> exact ⟨_, rfl⟩

theorem version_eq {d : List Byte} (h : 28 ≤ d.length) : (bufferOf d)[0]? = some (d.headD 0#8) := by
  match d, h with
  | b :: d, _ => simp [bufferOf, SIZE]

/-- What is received, with the undefined behaviour taken out. -/
theorem receive_eq {le : Bool} {d : List Byte} {now : BitVec 64} (h : 28 ≤ d.length) (hb : headerLength d ≤ d.length) :
    ∃ c b0 b1 i s t e,
      checksum le (((bufferOf d).drop (headerLength d)).take (min d.length SIZE - headerLength d)) = some c ∧
      (bufferOf d)[headerLength d]? = some b0 ∧ (bufferOf d)[headerLength d + 1]? = some b1 ∧
      load16 le ((bufferOf d).drop (headerLength d + 4)) = some i ∧ load16 le ((bufferOf d).drop (headerLength d + 6)) = some s ∧
      (bufferOf d)[8]? = some t ∧ load64 le ((bufferOf d).drop (headerLength d + 8)) = some e ∧
      receive le d now = some (
        if c ≠ 0#16 then { total := 0 }
        else if b0 ≠ 0#8 then { total := 0, type := some b0, code := some b1 }
        else if d.length < SIZE then { total := 0, type := some b0, code := some b1, id := some i, seq := some s, ttl := some t }
        else { total := 64, type := some b0, code := some b1, id := some i, seq := some s, ttl := some t, elapsed := some (now - e) }) := by
  have hl := bufferOf_length d
  have hh : headerLength d ≤ 60 := by
    unfold headerLength
    omega
  obtain ⟨c, hc, -⟩ := checksum_eq le (((bufferOf d).drop (headerLength d)).take (min d.length SIZE - headerLength d))
  have g : ∀ k, k < 84 → ∃ x, (bufferOf d)[k]? = some x := fun k hk => ⟨_, List.getElem?_eq_getElem (by rw [hl]; exact hk)⟩
  obtain ⟨b0, h0⟩ := g (headerLength d) (by omega)
  obtain ⟨b1, h1⟩ := g (headerLength d + 1) (by omega)
  obtain ⟨t, ht⟩ := g 8 (by omega)
  obtain ⟨i, hi⟩ := load16_some (le := le) (l := (bufferOf d).drop (headerLength d + 4)) (by
    rw [List.length_drop, hl]; simp only [SIZE]; omega)
  obtain ⟨s, hs⟩ := load16_some (le := le) (l := (bufferOf d).drop (headerLength d + 6)) (by
    rw [List.length_drop, hl]; simp only [SIZE]; omega)
  obtain ⟨e, he⟩ := load64_some (le := le) (l := (bufferOf d).drop (headerLength d + 8)) (by
    rw [List.length_drop, hl]; simp only [SIZE]; omega)
  refine ⟨c, b0, b1, i, s, t, e, hc, h0, h1, hi, hs, ht, he, ?_⟩
  have hv := version_eq h
  have ho := offset_eq (d.headD 0#8)
  change _ = headerLength d at ho
  unfold receive
  simp only []
  rw [if_neg (by simp only [SIZE]; omega)]
  change ((bufferOf d)[0]?).bind _ = _
  rw [hv]
  simp only [Option.bind_some]
  rw [ho, if_neg (by simp only [SIZE]; omega)]
  change (checksum le (((bufferOf d).drop (headerLength d)).take (min d.length SIZE - headerLength d))).bind _ = _
  rw [hc]
  simp only [Option.bind_some]
  by_cases hz : c = 0#16
  · subst hz
    simp only [ne_eq, not_true_eq_false, if_false]
    change ((bufferOf d)[headerLength d]?).bind _ = _
    rw [h0]
    simp only [Option.bind_some]
    change ((bufferOf d)[headerLength d + 1]?).bind _ = _
    rw [h1]
    simp only [Option.bind_some]
    by_cases hy : b0 = 0#8
    · subst hy
      simp only [not_true_eq_false, if_false]
      change (load16 le ((bufferOf d).drop (headerLength d + 4))).bind _ = _
      rw [hi]
      simp only [Option.bind_some]
      change (load16 le ((bufferOf d).drop (headerLength d + 6))).bind _ = _
      rw [hs]
      simp only [Option.bind_some]
      change ((bufferOf d)[8]?).bind _ = _
      rw [ht]
      simp only [Option.bind_some]
      by_cases hx : d.length < SIZE
      · rw [if_pos (by omega), if_pos hx]
      · rw [if_neg (by omega), if_neg hx]
        change (load64 le ((bufferOf d).drop (headerLength d + 8))).bind _ = _
        rw [he]
        simp only [Option.bind_some]
        rw [show min d.length SIZE - 20 = 64 by simp only [SIZE] at *; omega]
    · simp only [hy, not_false_eq_true, if_true]
  · simp only [ne_eq, hz, not_false_eq_true, if_true]

theorem network_inj {a b c d : Byte} (h : network [a, b] = network [c, d]) : a = c ∧ b = d := by
  simp only [network] at h
  constructor <;> apply BitVec.eq_of_toNat_eq <;> omega

end Diminuto.Ping
