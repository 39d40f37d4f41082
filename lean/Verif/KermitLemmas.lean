import Verif.Kermit

/-! Helper lemmas for the Kermit CRC properties. -/

namespace Diminuto.Kermit

/-- Shift register for one message bit: the reflected generator is `0x8408`. -/
def bitStep (c : BitVec 16) (b : Bool) : BitVec 16 :=
  (c >>> 1) ^^^ (if c.getLsbD 0 ^^ b then 0x8408 else 0)

/-- The bits of a byte, least significant first. -/
def byteBits (x : Byte) : List Bool :=
  [x.getLsbD 0, x.getLsbD 1, x.getLsbD 2, x.getLsbD 3,
   x.getLsbD 4, x.getLsbD 5, x.getLsbD 6, x.getLsbD 7]

theorem entry_eq (i : Byte) : entry i = (byteBits i).foldl bitStep 0 := by
  revert i
  decide +kernel

theorem fold_low (y : Byte) :
    (byteBits 0).foldl bitStep (y.setWidth 16) = (byteBits y).foldl bitStep 0 := by
  revert y
  decide +kernel

theorem fold_high (y : Byte) :
    (byteBits 0).foldl bitStep (y.setWidth 16 <<< 8) = y.setWidth 16 := by
  revert y
  decide +kernel

theorem bitStep_linear (c d : BitVec 16) (b e : Bool) :
    bitStep (c ^^^ d) (b ^^ e) = bitStep c b ^^^ bitStep d e := by
  unfold bitStep
  apply BitVec.eq_of_getLsbD_eq
  intro i hi
  simp only [BitVec.getLsbD_xor, BitVec.getLsbD_ushiftRight]
  cases c.getLsbD 0 <;> cases d.getLsbD 0 <;> cases b <;> cases e <;>
    cases c.getLsbD (1 + i) <;> cases d.getLsbD (1 + i) <;> simp

theorem fold_linear (xs ys : List Bool) (h : xs.length = ys.length) (c d : BitVec 16) :
    (List.zipWith Bool.xor xs ys).foldl bitStep (c ^^^ d) =
      xs.foldl bitStep c ^^^ ys.foldl bitStep d := by
  induction xs generalizing ys c d with
  | nil => cases ys with
    | nil => simp
    | cons y ys => simp at h
  | cons x xs ih => cases ys with
    | nil => simp at h
    | cons y ys =>
      simp only [List.zipWith_cons_cons, List.foldl_cons]
      rw [bitStep_linear, ih ys (by simpa using h)]

theorem byteBits_xor (x y : Byte) :
    byteBits (x ^^^ y) = List.zipWith Bool.xor (byteBits x) (byteBits y) := by
  simp [byteBits]

theorem byteBits_length (x : Byte) : (byteBits x).length = 8 := rfl

theorem fold_byte_xor (x y : Byte) (c d : BitVec 16) :
    (byteBits (x ^^^ y)).foldl bitStep (c ^^^ d) =
      (byteBits x).foldl bitStep c ^^^ (byteBits y).foldl bitStep d := by
  rw [byteBits_xor, fold_linear _ _ (by simp [byteBits_length])]

theorem split16 (c : BitVec 16) :
    c = (((c >>> 8).setWidth 8).setWidth 16 <<< 8) ^^^ ((c.setWidth 8).setWidth 16) := by
  apply BitVec.eq_of_getLsbD_eq
  intro i hi
  simp only [BitVec.getLsbD_xor, BitVec.getLsbD_shiftLeft, BitVec.getLsbD_setWidth,
    BitVec.getLsbD_ushiftRight]
  by_cases h : i < 8
  · simp [h, hi]
  · have h1 : i - 8 < 8 := by omega
    have h2 : i - 8 < 16 := by omega
    have h3 : 8 + (i - 8) = i := by omega
    simp [h, hi, h1, h2, h3]

theorem shift8_ext (c : BitVec 16) : ((c >>> 8).setWidth 8).setWidth 16 = c >>> 8 := by
  apply BitVec.eq_of_getLsbD_eq
  intro i hi
  simp only [BitVec.getLsbD_setWidth, BitVec.getLsbD_ushiftRight]
  by_cases h : i < 8
  · simp [h, hi]
  · have : c.getLsbD (8 + i) = false := BitVec.getLsbD_of_ge _ _ (by omega)
    simp [this]

/-- The table-driven step is eight shift-register steps. -/
theorem step_eq (c : BitVec 16) (x : Byte) : step c x = (byteBits x).foldl bitStep c := by
  have e1 : (c ^^^ x.setWidth 16).setWidth 8 = c.setWidth 8 ^^^ x := by
    apply BitVec.eq_of_getLsbD_eq
    intro i hi
    have : i < 16 := by omega
    simp [hi, this]
  unfold step
  rw [e1, entry_eq]
  have h0 : byteBits x = byteBits (0 ^^^ (0 ^^^ x)) := by simp
  conv => rhs; rw [h0]; arg 2; rw [split16 c]
  rw [fold_byte_xor 0 (0 ^^^ x), fold_high, shift8_ext]
  congr 1
  have h2 : (c.setWidth 8).setWidth 16 = ((c.setWidth 8).setWidth 16 : BitVec 16) ^^^ 0 := by simp
  rw [h2, fold_byte_xor 0 x, fold_low]
  have h3 : (0 : BitVec 16) = 0 ^^^ 0 := rfl
  conv => lhs; arg 2; rw [h3]
  rw [fold_byte_xor]

/-- The bits of a message in transmission order (LSB first within each byte). -/
def bits (m : List Byte) : List Bool := m.flatMap byteBits

theorem kermit16_eq (m : List Byte) (c : BitVec 16) :
    kermit16 m c = (bits m).foldl bitStep c := by
  induction m generalizing c with
  | nil => rfl
  | cons x xs ih =>
    show kermit16 xs (step c x) = _
    rw [ih, step_eq]
    simp [bits, List.foldl_append]

theorem kermit16_append (m n : List Byte) (c : BitVec 16) :
    kermit16 (m ++ n) c = kermit16 n (kermit16 m c) := by
  simp [kermit16, List.foldl_append]

/-- If at most sixteen bits drive the register to zero, its value was those bits. -/
theorem fold_eq_zero (w : List Bool) (h : w.length ≤ 16) (c : BitVec 16)
    (hz : w.foldl bitStep c = 0) : ∀ i, c.getLsbD i = (w[i]?).getD false := by
  induction w generalizing c with
  | nil =>
    intro i
    simp at hz
    simp [hz]
  | cons b w ih =>
    simp only [List.length_cons] at h
    have ih' := ih (by omega) (bitStep c b) (by simpa using hz)
    have top := ih' 15
    rw [List.getElem?_eq_none (by omega)] at top
    have hfb : (c.getLsbD 0 ^^ b) = false := by
      cases hb : (c.getLsbD 0 ^^ b) with
      | false => rfl
      | true =>
        unfold bitStep at top
        rw [hb] at top
        simp at top
    intro i
    cases i with
    | zero =>
      simp only [List.getElem?_cons_zero, Option.getD_some]
      revert hfb
      cases c.getLsbD 0 <;> cases b <;> simp
    | succ i =>
      have := ih' i
      unfold bitStep at this
      rw [hfb] at this
      simp only [List.getElem?_cons_succ]
      rw [← this]
      simp [Nat.add_comm]

theorem fold_zero_nonzero (w : List Bool) (h : w.length ≤ 16) (ht : true ∈ w) :
    w.foldl bitStep 0 ≠ 0 := by
  intro hz
  have := fold_eq_zero w h 0 hz
  obtain ⟨i, hi, e⟩ := List.getElem_of_mem ht
  have h' := this i
  simp [List.getElem?_eq_getElem hi, e] at h'

theorem bitStep_false_ne_zero (c : BitVec 16) (h : c ≠ 0) : bitStep c false ≠ 0 := by
  intro hz
  apply h
  have := fold_eq_zero [false] (by simp) c (by simpa using hz)
  apply BitVec.eq_of_getLsbD_eq
  intro i hi
  rw [this i]
  cases i <;> simp

theorem fold_zeros (n : Nat) : (List.replicate n false).foldl bitStep 0 = 0 := by
  induction n with
  | zero => rfl
  | succ n ih => rw [List.replicate_succ, List.foldl_cons]; exact ih

theorem fold_zeros_ne (n : Nat) (c : BitVec 16) (h : c ≠ 0) :
    (List.replicate n false).foldl bitStep c ≠ 0 := by
  induction n generalizing c with
  | zero => simpa using h
  | succ n ih =>
    rw [List.replicate_succ, List.foldl_cons]
    exact ih _ (bitStep_false_ne_zero c h)

theorem bits_length (m : List Byte) : (bits m).length = 8 * m.length := by
  induction m with
  | nil => rfl
  | cons x xs ih => simp [bits, byteBits_length] at *; omega

theorem xor_eq_zero_iff (c d : BitVec 16) : c ^^^ d = 0 ↔ c = d := by
  constructor
  · intro h
    have : c ^^^ d ^^^ d = 0 ^^^ d := by rw [h]
    simpa [BitVec.xor_assoc] using this
  · rintro rfl; simp

/-- Parity of a sixteen-bit value. -/
def parity (c : BitVec 16) : Bool :=
  (List.range 16).foldl (fun p i => p ^^ c.getLsbD i) false

theorem parity_xor (c d : BitVec 16) : parity (c ^^^ d) = (parity c ^^ parity d) := by
  have h : ∀ (l : List Nat) (p q : Bool),
      l.foldl (fun p i => p ^^ (c ^^^ d).getLsbD i) (p ^^ q) =
        (l.foldl (fun p i => p ^^ c.getLsbD i) p ^^ l.foldl (fun p i => p ^^ d.getLsbD i) q) := by
    intro l
    induction l with
    | nil => intro p q; rfl
    | cons i l ih =>
      intro p q
      simp only [List.foldl_cons]
      rw [← ih]
      congr 1
      rw [BitVec.getLsbD_xor]
      cases p <;> cases q <;> cases c.getLsbD i <;> cases d.getLsbD i <;> rfl
  exact h _ false false

theorem parity_shift (c : BitVec 16) : parity (c >>> 1) = (parity c ^^ c.getLsbD 0) := by
  have h16 : c.getLsbD 16 = false := BitVec.getLsbD_of_ge _ _ (by omega)
  simp only [parity, List.range, List.range.loop, List.foldl_cons, List.foldl_nil,
    BitVec.getLsbD_ushiftRight, Nat.reduceAdd, h16]
  cases c.getLsbD 0
  · simp
  · simp only [Bool.false_xor, Bool.xor_false, Bool.xor_true, Bool.not_xor,
      Bool.not_not]

theorem bitStep_parity (c : BitVec 16) (b : Bool) : parity (bitStep c b) = (parity c ^^ b) := by
  have h : ∀ f : Bool, parity (if f then 0x8408 else 0) = f := by decide
  unfold bitStep
  rw [parity_xor, parity_shift, h]
  cases parity c <;> cases c.getLsbD 0 <;> cases b <;> rfl

theorem fold_parity (w : List Bool) (c : BitVec 16) :
    parity (w.foldl bitStep c) = w.foldl Bool.xor (parity c) := by
  induction w generalizing c with
  | nil => rfl
  | cons b w ih => simp only [List.foldl_cons]; rw [ih, bitStep_parity]

end Diminuto.Kermit

namespace Diminuto.Kermit

theorem byteBits_get (x : Byte) (i : Nat) (h : i < 8) : (byteBits x)[i]? = some (x.getLsbD i) := by
  match i, h with
  | 0, _ => rfl
  | 1, _ => rfl
  | 2, _ => rfl
  | 3, _ => rfl
  | 4, _ => rfl
  | 5, _ => rfl
  | 6, _ => rfl
  | 7, _ => rfl

theorem bits_get (m : List Byte) (i : Nat) (h : i < 8 * m.length) :
    (bits m)[i]? = some ((m[i / 8]?.getD 0).getLsbD (i % 8)) := by
  induction m generalizing i with
  | nil => simp at h
  | cons x xs ih =>
    show (byteBits x ++ bits xs)[i]? = _
    by_cases hi : i < 8
    · rw [List.getElem?_append_left (by simpa [byteBits_length] using hi), byteBits_get x i hi]
      have e1 : i / 8 = 0 := by omega
      have e2 : i % 8 = i := by omega
      simp [e1, e2]
    · rw [List.getElem?_append_right (by simpa [byteBits_length] using hi), byteBits_length,
        ih (i - 8) (by simp at h; omega)]
      have e1 : i / 8 = (i - 8) / 8 + 1 := by omega
      have e2 : i % 8 = (i - 8) % 8 := by omega
      rw [e1, e2, List.getElem?_cons_succ]

theorem zip_false {xs ys : List Bool} {n : Nat}
    (hn : (List.zipWith Bool.xor xs ys).length = n)
    (h : ∀ i, i < n → (List.zipWith Bool.xor xs ys)[i]? = some false) :
    List.zipWith Bool.xor xs ys = List.replicate n false := by
  apply List.ext_getElem?
  intro i
  by_cases hi : i < n
  · rw [h i hi]; simp [hi]
  · rw [List.getElem?_eq_none (by omega), List.getElem?_eq_none (by simp; omega)]

/-- A bit error vector confined to a window of sixteen positions. -/
theorem window_ne (e : List Bool) (k : Nat) (ht : true ∈ e)
    (hw : ∀ i : Nat, e[i]? = some true → k ≤ i ∧ i < k + 16) : e.foldl bitStep 0 ≠ 0 := by
  have key : ∀ (l : List Bool), (∀ i : Nat, l[i]? ≠ some true) → l = List.replicate l.length false := by
    intro l hl
    apply List.eq_replicate_of_mem
    intro b hb
    obtain ⟨i, hi, e⟩ := List.getElem_of_mem hb
    cases b with
    | false => rfl
    | true => exact absurd (by rw [List.getElem?_eq_getElem hi, e]) (hl i)
  have d : e = e.take k ++ ((e.drop k).take 16 ++ (e.drop k).drop 16) := by
    rw [List.take_append_drop, List.take_append_drop]
  have h1 := key (e.take k) (by
    intro i hi
    by_cases hik : i < k
    · rw [List.getElem?_take_of_lt hik] at hi
      have := hw i hi; omega
    · rw [List.getElem?_eq_none (by simp; omega)] at hi; simp at hi)
  have h3 := key ((e.drop k).drop 16) (by
    intro i hi
    rw [List.getElem?_drop, List.getElem?_drop] at hi
    have := hw _ hi; omega)
  have h2 : true ∈ (e.drop k).take 16 := by
    rw [d, h1, h3] at ht
    simpa using ht
  rw [d, List.foldl_append, List.foldl_append, h1, fold_zeros, h3]
  apply fold_zeros_ne
  exact fold_zero_nonzero _ (by simp; omega) h2

end Diminuto.Kermit

namespace Diminuto.Kermit

theorem char6 (v : BitVec 6) :
    unchar (tochar (v.setWidth 16)) = v.setWidth 16 ∧
    secondIsValid (tochar (v.setWidth 16)) = true ∧
    0x20 ≤ (tochar (v.setWidth 16)).toNat ∧ (tochar (v.setWidth 16)).toNat ≤ 0x5f := by
  revert v
  decide +kernel

theorem char4 (v : BitVec 4) :
    unchar (tochar (v.setWidth 16)) = v.setWidth 16 ∧
    firstIsValid (tochar (v.setWidth 16)) = true ∧
    0x20 ≤ (tochar (v.setWidth 16)).toNat ∧ (tochar (v.setWidth 16)).toNat ≤ 0x5f := by
  revert v
  decide +kernel

theorem mask6 (c : BitVec 16) : c &&& 0x3f = (c.setWidth 6).setWidth 16 := by
  have e : ∀ i, i < 16 → (0x3f : BitVec 16).getLsbD i = decide (i < 6) := by decide
  apply BitVec.eq_of_getLsbD_eq
  intro i hi
  rw [BitVec.getLsbD_and, e i hi, BitVec.getLsbD_setWidth, BitVec.getLsbD_setWidth]
  cases c.getLsbD i <;> simp [hi]

theorem mask4 (c : BitVec 16) : c &&& 0x0f = (c.setWidth 4).setWidth 16 := by
  have e : ∀ i, i < 16 → (0x0f : BitVec 16).getLsbD i = decide (i < 4) := by decide
  apply BitVec.eq_of_getLsbD_eq
  intro i hi
  rw [BitVec.getLsbD_and, e i hi, BitVec.getLsbD_setWidth, BitVec.getLsbD_setWidth]
  cases c.getLsbD i <;> simp [hi]

theorem recombine (c : BitVec 16) :
    ((((c >>> 12) &&& 0x0f) <<< 12) ||| (((c >>> 6) &&& 0x3f) <<< 6)) |||
      (((c >>> 0) &&& 0x3f) <<< 0) = c := by
  have e : ∀ i, i < 16 → (0x3f : BitVec 16).getLsbD i = decide (i < 6) := by decide
  have e' : ∀ i, i < 16 → (0x0f : BitVec 16).getLsbD i = decide (i < 4) := by decide
  apply BitVec.eq_of_getLsbD_eq
  intro i hi
  simp only [BitVec.getLsbD_or, BitVec.getLsbD_shiftLeft, BitVec.getLsbD_and,
    BitVec.getLsbD_ushiftRight, e (i - 6) (by omega), e (i - 0) (by omega),
    e' (i - 12) (by omega)]
  by_cases h1 : i < 6
  · simp [h1, hi]; omega
  · by_cases h2 : i < 12
    · have : 6 + (i - 6) = i := by omega
      have h3 : i - 6 < 6 := by omega
      simp [h1, h2, this, hi, h3]
    · have : 12 + (i - 12) = i := by omega
      have h3 : i - 12 < 4 := by omega
      have h4 : ¬ (i - 6 < 6) := by omega
      simp [h1, h2, this, hi, h3, h4]

end Diminuto.Kermit
