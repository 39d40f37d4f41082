import Verif.PingLemmas

/-!
# Properties C70 and C71: the internet checksum and ping
-/

namespace Diminuto.Ping

/-! ## Checksum -/

/-- C70 (for up to 131074 bytes): the checksum, as it is stored in memory, is that of RFC 1071, whatever the byte order of the host. -/
theorem inet_checksum_rfc1071_partial (le : Bool) (bs : List Byte) (h : bs.length ≤ 131074) :
    ∃ c, checksum le bs = some c ∧ network (store16 le c) = rfc1071 bs := by
  obtain ⟨c, e, hc⟩ := checksum_eq le bs
  refine ⟨c, e, ?_⟩
  have hle := hsum_le le bs
  have hlt : hsum le bs < 2 ^ 32 := by
    have : (bs.length + 1) / 2 ≤ 65537 := by omega
    have := Nat.mul_le_mul_right 65535 this
    omega
  rw [Nat.mod_eq_of_lt hlt] at hc
  rw [store16_network, rfc_eq]
  cases le
  · simp only [Bool.false_eq_true, if_false, hc, hsum_be]
  · simp only [if_true]
    obtain ⟨h1, h2⟩ := hsum_swap bs
    have hn := norm_lt (hsum true bs)
    have : 65535 - (256 * (c.toNat % 256) + c.toNat / 256) = norm (words bs).sum := by
      have hm : norm (hsum true bs) % 65535 = hsum true bs % 65535 ∧ (norm (hsum true bs) = 0 ↔ hsum true bs = 0) := by
        unfold norm
        split <;> omega
      apply norm_unique
      · omega
      · omega
      · omega
    have := c.isLt
    omega

/-- With 131076 bytes the sum overflows: for a message of 65538 words FFFF the code computes 1 and not 0. -/
theorem inet_checksum_counterexample :
    checksum true (List.replicate 131076 0xFF#8) = some 1#16 ∧ rfc1071 (List.replicate 131076 0xFF#8) = 0 := by
  have hr : ∀ n, hsum true (List.replicate (2 * n) 0xFF#8) = n * 65535 ∧ (words (List.replicate (2 * n) 0xFF#8)).sum = n * 65535 := by
    intro n
    induction n with
    | zero => exact ⟨rfl, rfl⟩
    | succ n ih =>
      rw [show 2 * (n + 1) = 2 * n + 1 + 1 by omega, List.replicate_succ, List.replicate_succ]
      simp only [hsum, words, List.sum_cons, word_le, ih.1, ih.2]
      simp only [BitVec.toNat_ofNat]
      omega
  constructor
  · obtain ⟨c, e, hc⟩ := checksum_eq true (List.replicate 131076 0xFF#8)
    rw [e]
    rw [show 131076 = 2 * 65538 from rfl, (hr 65538).1] at hc
    rw [show 65535 - norm (65538 * 65535 % 2 ^ 32) = (1#16).toNat from rfl] at hc
    rw [BitVec.toNat_inj.mp hc]
  · rw [rfc_eq, show 131076 = 2 * 65538 from rfl, (hr 65538).2]
    rfl

/-- C70: a message with its checksum stored at an even offset has the checksum zero, which is how it is verified. -/
theorem inet_checksum_verifies_partial (le : Bool) (a b : List Byte) (ha : a.length % 2 = 0) (h : (a ++ [0#8, 0#8] ++ b).length ≤ 131074) :
    ∃ c, checksum le (a ++ [0#8, 0#8] ++ b) = some c ∧ checksum le (a ++ store16 le c ++ b) = some 0#16 := by
  obtain ⟨c, e, hc⟩ := checksum_small (le := le) h
  refine ⟨c, e, ?_⟩
  obtain ⟨d, e', hd⟩ := checksum_small (le := le) (bs := a ++ store16 le c ++ b) (by
    simp only [List.length_append, store16_length, List.length_cons, List.length_nil] at h ⊢
    omega)
  rw [e']
  congr 1
  apply BitVec.eq_of_toNat_eq
  rw [hd]
  rw [List.append_assoc, hsum_append le _ _ ha] at hc
  rw [List.append_assoc, hsum_append le _ _ ha, hsum_store]
  have hz : hsum le ([0#8, 0#8] ++ b) = hsum le b := by
    cases le <;> simp [hsum, word]
  rw [hz] at hc
  have h1 := norm_facts (hsum le a + hsum le b)
  have h2 := norm_facts (hsum le a + (c.toNat + hsum le b))
  simp only [BitVec.toNat_ofNat]
  omega

/-- C70: a message that verifies does not verify after any change of a single word, other than from 0000 to FFFF or back. -/
theorem inet_checksum_detects_partial (le : Bool) (a b : List Byte) (v w : BitVec 16) (ha : a.length % 2 = 0)
    (h : (a ++ store16 le v ++ b).length ≤ 131074) (hv : checksum le (a ++ store16 le v ++ b) = some 0#16) (hne : v ≠ w)
    (hx : ¬ (v = 0#16 ∧ w = 0xFFFF#16)) (hy : ¬ (v = 0xFFFF#16 ∧ w = 0#16)) :
    checksum le (a ++ store16 le w ++ b) ≠ some 0#16 := by
  intro hw
  obtain ⟨c, e, hc⟩ := checksum_small (le := le) h
  obtain ⟨d, e', hd⟩ := checksum_small (le := le) (bs := a ++ store16 le w ++ b) (by
    simp only [List.length_append, store16_length] at h ⊢
    omega)
  rw [hv] at e
  rw [hw] at e'
  simp only [Option.some.injEq] at e e'
  subst e e'
  rw [List.append_assoc, hsum_append le _ _ ha, hsum_store] at hc hd
  have h1 := norm_facts (hsum le a + (v.toNat + hsum le b))
  have h2 := norm_facts (hsum le a + (w.toNat + hsum le b))
  have l1 := v.isLt
  have l2 := w.isLt
  have n1 : v.toNat ≠ w.toNat := fun h => hne (BitVec.eq_of_toNat_eq h)
  have n2 : ¬ (v.toNat = 0 ∧ w.toNat = 65535) := fun h => hx ⟨BitVec.eq_of_toNat_eq h.1, BitVec.eq_of_toNat_eq h.2⟩
  have n3 : ¬ (v.toNat = 65535 ∧ w.toNat = 0) := fun h => hy ⟨BitVec.eq_of_toNat_eq h.1, BitVec.eq_of_toNat_eq h.2⟩
  simp only [BitVec.toNat_ofNat] at hc hd
  omega

/-- The example of RFC 1071 (00 01 f2 03 f4 f5 f6 f7: the sum is ddf2), and one with an odd byte. -/
example : checksum true [0#8, 1#8, 0xf2#8, 0x03#8, 0xf4#8, 0xf5#8, 0xf6#8, 0xf7#8] = some (~~~ 0xf2dd#16) ∧
    checksum false [0#8, 1#8, 0xf2#8, 0x03#8, 0xf4#8, 0xf5#8, 0xf6#8, 0xf7#8] = some (~~~ 0xddf2#16) ∧
    rfc1071 [0#8, 1#8, 0xf2#8, 0x03#8, 0xf4#8, 0xf5#8, 0xf6#8, 0xf7#8] = 65535 - 0xddf2 ∧
    checksum true [1#8, 2#8, 3#8] = some (~~~ 0x0204#16) := by decide

/-- The hypotheses of the other two hold for a short message. -/
example : checksum true ([8#8, 0#8] ++ [0#8, 0#8] ++ [1#8, 2#8, 3#8]) = some 0xFDF3#16 ∧
    checksum true ([8#8, 0#8] ++ store16 true 0xFDF3#16 ++ [1#8, 2#8, 3#8]) = some 0#16 := by decide

/-! ## Ping -/

/-- C71: nothing is read outside of the buffer, if the header is not longer than the datagram (which the kernel ensures). -/
theorem ping_in_bounds_partial (le : Bool) (d : List Byte) (now : BitVec 64) (h : headerLength d ≤ d.length) : receive le d now ≠ none := by
  by_cases hl : 28 ≤ d.length
  · obtain ⟨_, _, _, _, _, _, _, _, _, _, _, _, _, _, e⟩ := receive_eq (le := le) (now := now) hl h
    rw [e]
    simp
  · unfold receive
    simp only []
    rw [if_pos (by omega)]
    simp

/-- Without it there is undefined behaviour: a datagram of 28 bytes which says that its header has 60. -/
theorem ping_header_counterexample : receive true (0x4F#8 :: List.replicate 27 0#8) 0#64 = none := by decide

/-- C71: what is accepted: at least 84 bytes, the first 84 having an ICMP part with a valid checksum and the type zero (echo reply). -/
theorem ping_accepts (le : Bool) (d : List Byte) (now : BitVec 64) (h : headerLength d ≤ d.length) (r : Result)
    (hr : receive le d now = some r) :
    (r.total = 64 ∨ r.total = 0) ∧
    (r.total = 64 ↔ 84 ≤ d.length ∧ rfc1071 ((d.take 84).drop (headerLength d)) = 0 ∧ d[headerLength d]? = some 0#8) ∧
    (r.elapsed ≠ none ↔ r.total = 64) := by
  by_cases hl : 28 ≤ d.length
  · obtain ⟨c, b0, b1, i, s, t, e, hc, h0, h1, hi, hs, ht, he, heq⟩ := receive_eq (le := le) (now := now) hl h
    rw [heq, Option.some.injEq] at hr
    subst hr
    by_cases h84 : 84 ≤ d.length
    · have hbuf : bufferOf d = d.take 84 := by
        simp only [bufferOf, SIZE]
        rw [show 84 - d.length = 0 by omega]
        simp
      have hh : headerLength d ≤ 60 := by
        unfold headerLength
        omega
      have htl : (d.take 84).length = 84 := by
        rw [List.length_take]
        omega
      have hck : ((bufferOf d).drop (headerLength d)).take (min d.length SIZE - headerLength d) = (d.take 84).drop (headerLength d) := by
        rw [hbuf, List.take_of_length_le]
        rw [List.length_drop, htl]
        simp only [SIZE]
        omega
      rw [hck] at hc
      obtain ⟨c', hc', hn⟩ := inet_checksum_rfc1071_partial le ((d.take 84).drop (headerLength d)) (by
        rw [List.length_drop, htl]; omega)
      rw [hc, Option.some.injEq] at hc'
      subst hc'
      have hzero : c = 0#16 ↔ rfc1071 ((d.take 84).drop (headerLength d)) = 0 := by
        rw [← hn, store16_network, ← BitVec.toNat_inj]
        simp only [BitVec.toNat_ofNat]
        have := c.isLt
        split <;> omega
      have hd : d[headerLength d]? = some b0 := by
        rw [← h0, hbuf, List.getElem?_take_of_lt (by omega)]
      rw [hd]
      simp only [Option.some.injEq, ← hzero]
      by_cases hz : c = 0#16
      · by_cases hy : b0 = 0#8
        · subst hz hy
          simp [show ¬ d.length < SIZE by simp only [SIZE]; omega, h84]
        · simp [hz, hy]
      · simp [hz]
    · have : d.length < SIZE := by simp only [SIZE]; omega
      simp only [h84, false_and, iff_false, this, if_true]
      split
      · simp
      · split <;> simp
  · unfold receive at hr
    simp only [] at hr
    rw [if_pos (by omega), Option.some.injEq] at hr
    subst hr
    simp
    omega

/-- C71: the request has a valid checksum. -/
theorem ping_request_valid (le : Bool) (id seq : BitVec 16) (now : BitVec 64) :
    ∃ r, request le id seq now = some r ∧ r.length = 64 ∧ rfc1071 r = 0 ∧ checksum le r = some 0#16 := by
  obtain ⟨c, h1, h2⟩ := inet_checksum_verifies_partial le [8#8, 0#8] (store16 le id ++ store16 le seq ++ store64 le now ++ List.replicate 48 0#8)
    rfl (by simp [store16_length, store64_length])
  refine ⟨_, by rw [request, h1]; rfl, by simp [store16_length, store64_length], ?_, h2⟩
  obtain ⟨c', e, hn⟩ := inet_checksum_rfc1071_partial le ([8#8, 0#8] ++ store16 le c ++
    (store16 le id ++ store16 le seq ++ store64 le now ++ List.replicate 48 0#8)) (by simp [store16_length, store64_length])
  rw [h2, Option.some.injEq] at e
  subst e
  rw [← hn]
  cases le <;> rfl

/-- C71: a reply to a request, with any header (of 20 to 60 bytes) gives back the identifier and the sequence number, and the time that it
took. -/
theorem ping_round_trip (le : Bool) (id seq : BitVec 16) (before after : BitVec 64) (r header : List Byte) (k0 k1 : Byte)
    (hr : request le id seq before = some r) (hh : header.length = headerLength header) (hl : 20 ≤ header.length)
    (hk : network [k0, k1] = rfc1071 ([0#8, 0#8] ++ [0#8, 0#8] ++ r.drop 4)) :
    receive le (header ++ ([0#8, 0#8] ++ [k0, k1] ++ r.drop 4)) after =
      some { total := 64, type := some 0#8, code := some 0#8, id := some id, seq := some seq, ttl := header[8]?,
             elapsed := some (after - before) } := by
  obtain ⟨c, hc, -⟩ := checksum_eq le ([8#8, 0#8] ++ [0#8, 0#8] ++ (store16 le id ++ store16 le seq ++ store64 le before ++ List.replicate 48 0#8))
  have hrd : r.drop 4 = store16 le id ++ (store16 le seq ++ (store64 le before ++ List.replicate 48 0#8)) := by
    unfold request at hr
    simp only [] at hr
    rw [hc, Option.map_some, Option.some.injEq] at hr
    subst hr
    have : ([8#8, 0#8] ++ store16 le c).length = 4 := by simp [store16_length]
    rw [List.drop_append_of_le_length (by omega), List.drop_eq_nil_of_le (by omega)]
    simp
  rw [hrd] at hk ⊢
  -- the checksum of the reply
  obtain ⟨q, hq, hv⟩ := inet_checksum_verifies_partial le [0#8, 0#8]
    (store16 le id ++ (store16 le seq ++ (store64 le before ++ List.replicate 48 0#8))) rfl (by simp [store16_length, store64_length])
  obtain ⟨q', hq', hn⟩ := inet_checksum_rfc1071_partial le ([0#8, 0#8] ++ [0#8, 0#8] ++
    (store16 le id ++ (store16 le seq ++ (store64 le before ++ List.replicate 48 0#8)))) (by simp [store16_length, store64_length])
  rw [hq, Option.some.injEq] at hq'
  subst hq'
  have hkk : [k0, k1] = store16 le q := by
    rw [← hn] at hk
    obtain ⟨x, y, hxy⟩ : ∃ x y, store16 le q = [x, y] := by
      cases le <;> exact ⟨_, _, rfl⟩
    rw [hxy] at hk ⊢
    obtain ⟨rfl, rfl⟩ := network_inj hk
    rfl
  rw [hkk]
  -- the datagram
  have hne : header ≠ [] := by
    rintro rfl
    simp at hl
  obtain ⟨v, rest, rfl⟩ := List.exists_cons_of_ne_nil hne
  generalize hD : v :: rest ++ ([0#8, 0#8] ++ store16 le q ++ (store16 le id ++ (store16 le seq ++ (store64 le before ++ List.replicate 48 0#8)))) = D
  have hoff : headerLength D = (v :: rest).length := by
    rw [hh, ← hD]
    rfl
  have h60 : (v :: rest).length ≤ 60 := by
    rw [hh]
    unfold headerLength
    omega
  have hDl : D.length = (v :: rest).length + 64 := by
    rw [← hD]
    simp [store16_length, store64_length]
  obtain ⟨c1, b0, b1, i, s, t, e, hc1, h0, h1, hi, hs, ht, he, heq⟩ := receive_eq (le := le) (now := after) (d := D)
    (by omega) (by omega)
  rw [heq]
  have hbuf : bufferOf D = v :: rest ++ ([0#8, 0#8] ++ store16 le q ++ (store16 le id ++ (store16 le seq ++ (store64 le before ++
      List.replicate (68 - (v :: rest).length) 0#8)))) := by
    have : bufferOf D = D.take 84 := by
      simp only [bufferOf, SIZE]
      rw [show 84 - D.length = 0 by omega]
      simp
    rw [this, ← hD]
    generalize hH : v :: rest = H at *
    rw [List.take_append, List.take_of_length_le (by omega), List.take_append, List.take_of_length_le (by simp [store16_length]; omega),
      List.take_append, List.take_of_length_le (by simp [store16_length]; omega),
      List.take_append, List.take_of_length_le (by simp [store16_length]; omega),
      List.take_append, List.take_of_length_le (by simp [store16_length, store64_length]; omega), List.take_replicate]
    simp only [store16_length, store64_length, List.length_append, List.length_cons, List.length_nil]
    congr 7
    omega
  rw [hbuf, hoff] at h0 h1 hi hs he hc1
  rw [hbuf] at ht
  generalize hH : v :: rest = H at *
  have d0 : ∀ (l : List Byte) k, (H ++ l).drop (H.length + k) = l.drop k := by
    intro l k
    rw [List.drop_append, List.drop_eq_nil_of_le (by omega)]
    simp
  rw [d0] at hi hs he
  rw [List.drop_left] at hc1
  have dr : ∀ (a l : List Byte) k, a.length = k → (a ++ l).drop k = l := by
    intro a l k hk
    rw [← hk]
    simp
  rw [dr _ _ 4 (by simp [store16_length]), load_store16, Option.some.injEq] at hi
  rw [← List.append_assoc, dr _ _ 6 (by simp [store16_length]), load_store16, Option.some.injEq] at hs
  rw [← List.append_assoc, ← List.append_assoc, dr _ _ 8 (by simp [store16_length]), load_store64, Option.some.injEq] at he
  have hc0 : c1 = 0#16 := by
    rw [List.take_of_length_le (by simp only [List.length_append, store16_length, store64_length, List.length_replicate, List.length_cons, List.length_nil, SIZE]; omega)] at hc1
    obtain ⟨x, ex, hx⟩ := checksum_small (le := le) (bs := [0#8, 0#8] ++ store16 le q ++ (store16 le id ++ (store16 le seq ++ (store64 le before ++
      List.replicate (68 - H.length) 0#8)))) (by simp [store16_length, store64_length]; omega)
    obtain ⟨y, ey, hy⟩ := checksum_small (le := le) (bs := [0#8, 0#8] ++ store16 le q ++ (store16 le id ++ (store16 le seq ++ (store64 le before ++
      List.replicate 48 0#8)))) (by simp [store16_length, store64_length])
    rw [ex, Option.some.injEq] at hc1
    rw [hv, Option.some.injEq] at ey
    subst hc1
    have hsame : ∀ n, hsum le ([0#8, 0#8] ++ store16 le q ++ (store16 le id ++ (store16 le seq ++ (store64 le before ++
      List.replicate n 0#8)))) = hsum le ([0#8, 0#8] ++ store16 le q ++ (store16 le id ++ (store16 le seq ++ store64 le before))) := by
      intro n
      have : ([0#8, 0#8] ++ store16 le q ++ (store16 le id ++ (store16 le seq ++ (store64 le before ++ List.replicate n 0#8)))) =
        ([0#8, 0#8] ++ store16 le q ++ (store16 le id ++ (store16 le seq ++ store64 le before))) ++ List.replicate n 0#8 := by
        simp
      rw [this, hsum_append le _ _ (by simp [store16_length, store64_length]), hsum_zeros]
      rfl
    rw [hsame] at hx hy
    apply BitVec.eq_of_toNat_eq
    rw [hx, ← hy, ← ey]
  rw [List.getElem?_append_right (by omega), Nat.sub_self] at h0
  rw [List.getElem?_append_right (by omega), Nat.add_sub_cancel_left] at h1
  simp at h0 h1
  rw [List.getElem?_append_left (by omega)] at ht
  subst h0 h1 hc0 hi hs he
  rw [← ht]
  simp [show ¬ D.length < SIZE by simp only [SIZE]; omega]

/-- The hypotheses hold for a reply with a header of 24 bytes on a little-endian host. -/
example : ∃ r, request true 0x1234#16 7#16 1000#64 = some r ∧
    receive true ((0x46#8 :: List.replicate 23 64#8) ++ ([0#8, 0#8] ++ [0xDC#8, 0xE9#8] ++ r.drop 4)) 1500#64 =
      some { total := 64, type := some 0#8, code := some 0#8, id := some 0x1234#16, seq := some 7#16, ttl := some 64#8,
             elapsed := some 500#64 } ∧
    network [0xDC#8, 0xE9#8] = rfc1071 ([0#8, 0#8] ++ [0#8, 0#8] ++ r.drop 4) := by
  exact ⟨(request true 0x1234#16 7#16 1000#64).getD [], by decide, by decide, by decide⟩

end Diminuto.Ping
