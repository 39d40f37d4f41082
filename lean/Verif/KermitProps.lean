import Verif.KermitPoly
import Mathlib.Tactic.ComputeDegree

/-!
# Properties C03, C04 and C05: the Kermit CRC
-/

namespace Diminuto.Kermit

open Polynomial

/-! ## C03: the table-driven code divides by the CCITT polynomial -/

/-- Bit `i` of a message in transmission order: byte `i / 8`, least significant
bit first. -/
def bitAt (m : List Byte) (i : Nat) : Bool := (m[i / 8]?.getD 0).getLsbD (i % 8)

/-- The message as a polynomial over GF(2): of the `8 n` bits, bit `i` is the
coefficient of `X ^ (8 n - 1 - i)`. -/
noncomputable def messagePoly (m : List Byte) : (ZMod 2)[X] :=
  ∑ i ∈ Finset.range (8 * m.length), if bitAt m i then X ^ (8 * m.length - 1 - i) else 0

/-- A CRC value as a polynomial: reflected, so bit `15 - i` is the coefficient of `X ^ i`. -/
noncomputable def crcPoly (c : BitVec 16) : (ZMod 2)[X] :=
  ∑ i ∈ Finset.range 16, if c.getLsbD (15 - i) then X ^ i else 0

/-- The CCITT generator. -/
noncomputable def ccitt : (ZMod 2)[X] := X ^ 16 + X ^ 12 + X ^ 5 + 1

theorem crcPoly_eq (c : BitVec 16) : crcPoly c = regPoly c := by
  unfold crcPoly regPoly bitPoly
  apply Finset.sum_congr rfl
  intro i _
  cases c.getLsbD (15 - i) <;> simp

theorem msgPoly_eq_sum (l : List Bool) :
    msgPoly l = ∑ i ∈ Finset.range l.length,
      if l[i]?.getD false then X ^ (l.length - 1 - i) else 0 := by
  induction l with
  | nil => simp [msgPoly]
  | cons b l ih =>
    rw [msgPoly, ih, List.length_cons, Finset.sum_range_succ']
    rw [add_comm]
    congr 1
    · apply Finset.sum_congr rfl
      intro i hi
      have : l.length + 1 - 1 - (i + 1) = l.length - 1 - i := by omega
      rw [this, List.getElem?_cons_succ]
    · cases b <;> simp [bitPoly]

theorem messagePoly_eq (m : List Byte) : messagePoly m = msgPoly (bits m) := by
  rw [msgPoly_eq_sum, messagePoly, bits_length]
  apply Finset.sum_congr rfl
  intro i hi
  rw [Finset.mem_range] at hi
  rw [bits_get m i hi]
  rfl

/-- C03: for every message and initial value, the result is the remainder of the
division of `X^(8n) * init + X^16 * message` by `X^16 + X^12 + X^5 + 1`. -/
theorem kermit_is_ccitt_remainder (m : List Byte) (c : BitVec 16) :
    (∃ q, X ^ (8 * m.length) * crcPoly c + X ^ 16 * messagePoly m =
      q * ccitt + crcPoly (kermit16 m c)) ∧
    (crcPoly (kermit16 m c)).degree < ccitt.degree := by
  constructor
  · obtain ⟨q, hq⟩ := fold_poly (bits m) c
    refine ⟨q, ?_⟩
    rw [crcPoly_eq, crcPoly_eq, messagePoly_eq, kermit16_eq, ← bits_length]
    exact hq
  · rw [crcPoly_eq]
    have hd : ccitt.degree = 16 := by unfold ccitt; compute_degree!
    rw [hd]
    exact regPoly_degree _

/-- C03 (incremental): feeding a message in any pieces, carrying the CRC, equals
one call over the concatenation. -/
theorem kermit_pieces (ps : List (List Byte)) (c : BitVec 16) :
    ps.foldl (fun c p => kermit16 p c) c = kermit16 ps.flatten c := by
  induction ps generalizing c with
  | nil => rfl
  | cons p ps ih => simp only [List.foldl_cons, ih, List.flatten_cons, kermit16_append]

-- Non-vacuity: the published check value of CRC-16/KERMIT over "123456789" is 0x2189.
example : kermit16 [0x31, 0x32, 0x33, 0x34, 0x35, 0x36, 0x37, 0x38, 0x39] 0 = 0x2189 := by
  decide +kernel

/-! ## C04: burst and odd-weight error detection -/

theorem kermit_xor (m m' : List Byte) (hl : m.length = m'.length) (c : BitVec 16)
    (he : kermit16 m c = kermit16 m' c) :
    (List.zipWith Bool.xor (bits m) (bits m')).foldl bitStep 0 = 0 := by
  have h := fold_linear (bits m) (bits m') (by rw [bits_length, bits_length, hl]) c c
  rw [← kermit16_eq, ← kermit16_eq, he] at h
  simpa using h

theorem error_get (m m' : List Byte) (hl : m.length = m'.length) (i : Nat)
    (hi : i < 8 * m.length) :
    (List.zipWith Bool.xor (bits m) (bits m'))[i]? = some (bitAt m i ^^ bitAt m' i) := by
  rw [List.getElem?_zipWith, bits_get m i hi, bits_get m' i (hl ▸ hi)]
  rfl

theorem bitAt_ext (m m' : List Byte) (hl : m.length = m'.length)
    (h : ∀ i, i < 8 * m.length → bitAt m i = bitAt m' i) : m = m' := by
  apply List.ext_getElem hl
  intro j h1 h2
  apply BitVec.eq_of_getLsbD_eq
  intro b hb
  have := h (8 * j + b) (by omega)
  unfold bitAt at this
  have e1 : (8 * j + b) / 8 = j := by omega
  have e2 : (8 * j + b) % 8 = b := by omega
  rw [e1, e2, List.getElem?_eq_getElem h1, List.getElem?_eq_getElem h2] at this
  exact this

/-- C04 (bursts): two different messages of equal length whose differing bits all
lie in a window of sixteen consecutive bits never have the same CRC. -/
theorem kermit_detects_bursts (m m' : List Byte) (c : BitVec 16) (k : Nat)
    (hl : m.length = m'.length) (hne : m ≠ m')
    (hw : ∀ i, i < 8 * m.length → bitAt m i ≠ bitAt m' i → k ≤ i ∧ i < k + 16) :
    kermit16 m c ≠ kermit16 m' c := by
  intro he
  have hz := kermit_xor m m' hl c he
  have hlen : (List.zipWith Bool.xor (bits m) (bits m')).length = 8 * m.length := by
    simp [bits_length, hl]
  refine window_ne _ k ?_ ?_ hz
  · apply Classical.byContradiction
    intro hn
    apply hne
    apply bitAt_ext m m' hl
    intro i hi
    have hg := error_get m m' hl i hi
    have hmem := List.mem_of_getElem? hg
    cases hx : (bitAt m i ^^ bitAt m' i) with
    | true => rw [hx] at hmem; exact absurd hmem hn
    | false => revert hx; cases bitAt m i <;> cases bitAt m' i <;> simp
  · intro i hi
    have hlt : i < 8 * m.length := by
      rw [← hlen]
      exact (List.getElem?_eq_some_iff.mp hi).1
    apply hw i hlt
    rw [error_get m m' hl i hlt] at hi
    intro heq
    rw [heq] at hi
    simp at hi

theorem foldl_xor_count (l : List Bool) (p : Bool) :
    l.foldl Bool.xor p = (p ^^ decide (l.count true % 2 = 1)) := by
  induction l generalizing p with
  | nil => simp
  | cons b l ih =>
    rw [List.foldl_cons, ih]
    cases b
    · simp
    · rw [List.count_cons_self]
      have : decide ((l.count true + 1) % 2 = 1) = !decide (l.count true % 2 = 1) := by
        rw [← decide_not]
        congr 1
        apply propext
        omega
      rw [this]
      cases p <;> simp

/-- C04 (odd weight): two messages of equal length that differ in an odd number
of bits never have the same CRC. -/
theorem kermit_detects_odd (m m' : List Byte) (c : BitVec 16)
    (hl : m.length = m'.length)
    (hodd : ((List.range (8 * m.length)).filter fun i => bitAt m i != bitAt m' i).length % 2 = 1) :
    kermit16 m c ≠ kermit16 m' c := by
  intro he
  have hz := kermit_xor m m' hl c he
  have hp := fold_parity (List.zipWith Bool.xor (bits m) (bits m')) 0
  rw [hz, foldl_xor_count] at hp
  have h0 : parity 0 = false := by decide
  rw [h0] at hp
  have hlist : List.zipWith Bool.xor (bits m) (bits m') =
      (List.range (8 * m.length)).map fun i => (bitAt m i ^^ bitAt m' i) := by
    apply List.ext_getElem?
    intro i
    by_cases hi : i < 8 * m.length
    · rw [error_get m m' hl i hi]
      simp [hi]
    · rw [List.getElem?_eq_none (by simp [bits_length, ← hl]; omega),
        List.getElem?_eq_none (by simp; omega)]
  have hcount : (List.zipWith Bool.xor (bits m) (bits m')).count true =
      ((List.range (8 * m.length)).filter fun i => bitAt m i != bitAt m' i).length := by
    rw [hlist, List.count_eq_countP, List.countP_map, List.countP_eq_length_filter]
    congr 2
    funext i
    simp only [Function.comp]
    cases bitAt m i <;> cases bitAt m' i <;> rfl
  rw [hcount, hodd] at hp
  simp at hp

/-- C04 (initial value): for a fixed message the CRC determines the initial value. -/
theorem kermit_injective_init (m : List Byte) (c d : BitVec 16)
    (h : kermit16 m c = kermit16 m d) : c = d := by
  have hl := fold_linear (bits m) (bits m) rfl c d
  rw [← kermit16_eq, ← kermit16_eq, h] at hl
  have hz : List.zipWith Bool.xor (bits m) (bits m) = List.replicate (bits m).length false := by
    induction bits m with
    | nil => rfl
    | cons b l ih => simp [List.replicate_succ]
  rw [hz] at hl
  simp only [BitVec.xor_self] at hl
  apply (xor_eq_zero_iff c d).mp
  apply Classical.byContradiction
  intro hn
  exact fold_zeros_ne _ _ hn hl

-- Non-vacuity: a burst straddling a byte boundary, and a three-bit error.
example : let m : List Byte := [1, 2, 3, 4]; let m' : List Byte := [1, 0x82, 0x7c, 4]
    m.length = m'.length ∧ m ≠ m' ∧
    (∀ i, i < 8 * m.length → bitAt m i ≠ bitAt m' i → 15 ≤ i ∧ i < 15 + 16) ∧
    kermit16 m 0 ≠ kermit16 m' 0 := by decide +kernel
example : let m : List Byte := [1, 2, 3]; let m' : List Byte := [0, 0, 2]
    ((List.range (8 * m.length)).filter fun i => bitAt m i != bitAt m' i).length % 2 = 1 := by
  decide +kernel

/-! ## C05: the three-character encoding -/

/-- C05: every 16-bit CRC survives conversion to three characters and back, and
the characters satisfy the validity predicates, lie between space and
underscore, hence are never one of the bytes `7D 7E 0A 11 13` used for framing
and flow control. -/
theorem kermit_chars_round_trip (crc : BitVec 16) :
    let (a, b, c) := crc2chars crc
    chars2crc a b c = crc ∧
    firstIsValid a = true ∧ secondIsValid b = true ∧ thirdIsValid c = true ∧
    ∀ x ∈ [a, b, c], 0x20 ≤ x.toNat ∧ x.toNat ≤ 0x5f ∧ x ∉ [0x7d, 0x7e, 0x0a, 0x11, 0x13] := by
  simp only [crc2chars]
  have h1 := char4 ((crc >>> 12).setWidth 4)
  have h2 := char6 ((crc >>> 6).setWidth 6)
  have h3 := char6 ((crc >>> 0).setWidth 6)
  rw [← mask4] at h1
  rw [← mask6] at h2 h3
  refine ⟨?_, h1.2.1, h2.2.1, h3.2.1, ?_⟩
  · unfold chars2crc
    rw [h1.1, h2.1, h3.1]
    exact recombine crc
  · have far : ∀ x : Byte, 0x20 ≤ x.toNat ∧ x.toNat ≤ 0x5f →
        0x20 ≤ x.toNat ∧ x.toNat ≤ 0x5f ∧ x ∉ ([0x7d, 0x7e, 0x0a, 0x11, 0x13] : List Byte) := by
      decide +kernel
    intro x hx
    simp only [List.mem_cons, List.not_mem_nil, or_false] at hx
    rcases hx with rfl | rfl | rfl
    · exact far _ h1.2.2
    · exact far _ h2.2.2
    · exact far _ h3.2.2

example : crc2chars 0x2189 = (0x22, 0x26, 0x29) ∧ chars2crc 0x22 0x26 0x29 = 0x2189 := by
  decide +kernel

theorem valid6 : ∀ x : Byte, secondIsValid x = true → ∃ v : BitVec 6, x = tochar (v.setWidth 16) := by
  decide +kernel

theorem valid4 : ∀ x : Byte, firstIsValid x = true → ∃ v : BitVec 4, x = tochar (v.setWidth 16) := by
  decide +kernel

/-- C05, the converse: three characters pass the validity tests exactly if they are the
encoding of some CRC, so nothing else is accepted. -/
theorem kermit_chars_valid_iff (a b c : Byte) :
    (firstIsValid a = true ∧ secondIsValid b = true ∧ thirdIsValid c = true) ↔
      ∃ crc, crc2chars crc = (a, b, c) := by
  constructor
  · rintro ⟨ha, hb, hc⟩
    obtain ⟨u, rfl⟩ := valid4 a ha
    obtain ⟨v, rfl⟩ := valid6 b hb
    obtain ⟨w, rfl⟩ := valid6 c hc
    refine ⟨BitVec.ofNat 16 (4096 * u.toNat + 64 * v.toNat + w.toNat), ?_⟩
    have hu := u.isLt
    have hv := v.isLt
    have hw := w.isLt
    simp only [crc2chars, mask4, mask6]
    have e1 : (BitVec.ofNat 16 (4096 * u.toNat + 64 * v.toNat + w.toNat) >>> 12).setWidth 4 = u := by
      apply BitVec.eq_of_toNat_eq
      simp only [BitVec.toNat_setWidth, BitVec.toNat_ushiftRight, BitVec.toNat_ofNat,
        Nat.shiftRight_eq_div_pow]
      omega
    have e2 : (BitVec.ofNat 16 (4096 * u.toNat + 64 * v.toNat + w.toNat) >>> 6).setWidth 6 = v := by
      apply BitVec.eq_of_toNat_eq
      simp only [BitVec.toNat_setWidth, BitVec.toNat_ushiftRight, BitVec.toNat_ofNat,
        Nat.shiftRight_eq_div_pow]
      omega
    have e3 : (BitVec.ofNat 16 (4096 * u.toNat + 64 * v.toNat + w.toNat) >>> 0).setWidth 6 = w := by
      apply BitVec.eq_of_toNat_eq
      simp only [BitVec.toNat_setWidth, BitVec.toNat_ushiftRight, BitVec.toNat_ofNat,
        Nat.shiftRight_eq_div_pow]
      omega
    rw [e1, e2, e3]
  · rintro ⟨crc, h⟩
    have := kermit_chars_round_trip crc
    rw [h] at this
    exact ⟨this.2.1, this.2.2.1, this.2.2.2.1⟩

example : firstIsValid 0x22 = true ∧ secondIsValid 0x26 = true ∧ thirdIsValid 0x29 = true := by decide

end Diminuto.Kermit
