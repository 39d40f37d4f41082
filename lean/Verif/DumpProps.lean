import Verif.DumpLemmas

/-!
# Property C54: Dump
-/

namespace Diminuto.Dump

/-- C54, in general: if no address overflows, lines are printed that show the data exactly. -/
theorem dump_lines_partial (f : Format) (data : List Byte) (start : BitVec 64) (W : Nat) (hW : f.bpw.toNat * f.wpl.toNat = W) (hW0 : 0 < W)
    (hfit : start.toNat + data.length + 2 * W ≤ 2 ^ 64) :
    ∃ a n, (∀ fuel, 2 ^ 64 < fuel → dump f data start fuel = some (showLines f start.toNat data a n)) ∧
      a ≤ start.toNat ∧ start.toNat < a + W ∧ start.toNat + data.length ≤ a + n * W := by
  have hlen : data.length < 2 ^ 64 := by omega
  have el : (BitVec.ofNat 64 data.length).toNat = data.length := by
    rw [BitVec.toNat_ofNat, Nat.mod_eq_of_lt hlen]
  have e1 : (start + BitVec.ofNat 64 data.length).toNat = start.toNat + data.length := by
    rw [BitVec.toNat_add, el, Nat.mod_eq_of_lt (by omega)]
  have eW : (f.bpw * f.wpl).toNat = W := by rw [BitVec.toNat_mul, hW, Nat.mod_eq_of_lt (by omega)]
  have em : (f.bpw * f.wpl - 1#64).toNat = W - 1 := by
    rw [BitVec.toNat_sub, eW, show (1#64).toNat = 1 from rfl]
    omega
  have e2 : (start + BitVec.ofNat 64 data.length + (f.bpw * f.wpl - 1#64)).toNat = start.toNat + data.length + (W - 1) := by
    rw [BitVec.toNat_add, e1, em, Nat.mod_eq_of_lt (by omega)]
  have hb : 0 < f.bpw.toNat := by
    rcases Nat.eq_zero_or_pos f.bpw.toNat with h | h
    · rw [h] at hW; omega
    · exact h
  have hA := and_add start (f.bpw * f.wpl - 1#64)
  have hE := and_add (start + BitVec.ofNat 64 data.length + (f.bpw * f.wpl - 1#64)) (f.bpw * f.wpl - 1#64)
  have hA' : (start &&& (f.bpw * f.wpl - 1#64)).toNat ≤ W - 1 := by
    rw [BitVec.toNat_and, em]; exact Nat.and_le_right
  have hE' : ((start + BitVec.ofNat 64 data.length + (f.bpw * f.wpl - 1#64)) &&& (f.bpw * f.wpl - 1#64)).toNat ≤ W - 1 := by
    rw [BitVec.toNat_and, em]; exact Nat.and_le_right
  rw [e2] at hE
  generalize hbeg : start &&& ~~~(f.bpw * f.wpl - 1#64) = beg at *
  generalize hstop : (start + BitVec.ofNat 64 data.length + (f.bpw * f.wpl - 1#64)) &&& ~~~(f.bpw * f.wpl - 1#64) = stop at *
  -- the number of lines
  obtain ⟨n, hn1, hn2⟩ : ∃ n, stop.toNat ≤ beg.toNat + n * W ∧ (0 < n → beg.toNat + (n - 1) * W < stop.toNat) := by
    refine ⟨(stop.toNat - beg.toNat + (W - 1)) / W, ?_, ?_⟩
    · have h1 := Nat.div_add_mod (stop.toNat - beg.toNat + (W - 1)) W
      have h2 := Nat.mod_lt (stop.toNat - beg.toNat + (W - 1)) hW0
      rw [Nat.mul_comm] at h1
      omega
    · intro hn
      have h1 := Nat.div_mul_le_self (stop.toNat - beg.toNat + (W - 1)) W
      generalize (stop.toNat - beg.toNat + (W - 1)) / W = n at *
      obtain ⟨m, rfl⟩ : ∃ m, n = m + 1 := ⟨n - 1, by omega⟩
      rw [Nat.succ_mul] at h1
      simp only [Nat.add_sub_cancel]
      omega
  have hn3 : beg.toNat + n * W < 2 ^ 64 := by
    rcases Nat.eq_zero_or_pos n with h | h
    · subst h; have := beg.isLt; omega
    · have h1 := hn2 h
      have : (n - 1) * W + W = n * W := by rw [← Nat.succ_mul]; congr 1; omega
      omega
  refine ⟨beg.toNat, n, ?_, by omega, by omega, by omega⟩
  intro fuel hfuel
  have hnf : n < fuel := by
    have : n * 1 ≤ n * W := Nat.mul_le_mul_left _ hW0
    omega
  have := lines_eq f data start (start + BitVec.ofNat 64 data.length) stop e1 hb (by omega) (by omega) fuel (by omega) n fuel beg
    (by rw [hW]; exact hn3) (by rw [hW]; exact hn1) (by rw [hW]; exact hn2) hnf
  rw [show idx start.toNat data.length beg.toNat = 0 by simp only [idx]; omega] at this
  unfold dump
  simp only []
  rw [hbeg, hstop]
  exact this

/-- C54: if the length of a line is a power of two and no address overflows, the lines are those between the greatest multiple of the
length that is not above the address and the least that is not below the end. -/
theorem dump_exact_partial (f : Format) (data : List Byte) (start : BitVec 64) (k : Nat) (hW : f.bpw.toNat * f.wpl.toNat = 2 ^ k)
    (hfit : start.toNat + data.length + 2 ^ k ≤ 2 ^ 64) (fuel : Nat) (hfuel : 2 ^ 64 < fuel) :
    dump f data start fuel = some (showLines f start.toNat data (start.toNat / 2 ^ k * 2 ^ k)
      ((start.toNat + data.length + (2 ^ k - 1)) / 2 ^ k - start.toNat / 2 ^ k)) := by
  have hW0 : 0 < 2 ^ k := Nat.two_pow_pos k
  generalize hWd : 2 ^ k = W at *
  have hlen : data.length < 2 ^ 64 := by omega
  have el : (BitVec.ofNat 64 data.length).toNat = data.length := by
    rw [BitVec.toNat_ofNat, Nat.mod_eq_of_lt hlen]
  have e1 : (start + BitVec.ofNat 64 data.length).toNat = start.toNat + data.length := by
    rw [BitVec.toNat_add, el, Nat.mod_eq_of_lt (by omega)]
  by_cases hbig : W = 2 ^ 64
  · -- the data are empty and at address zero
    have hs : start = 0#64 := BitVec.eq_of_toNat_eq (by rw [show (0#64).toNat = 0 from rfl]; omega)
    have hd : data = [] := List.eq_nil_of_length_eq_zero (by omega)
    have eW : f.bpw * f.wpl = 0#64 := BitVec.eq_of_toNat_eq (by rw [BitVec.toNat_mul, hW, hbig]; rfl)
    subst hs hd
    obtain ⟨n, rfl⟩ : ∃ m, fuel = m + 1 := ⟨fuel - 1, by omega⟩
    unfold dump
    simp only [eW]
    unfold lines
    rw [if_neg (by decide)]
    simp only [showLines]
    rw [show ((0#64).toNat + ([] : List Byte).length + (W - 1)) / W - (0#64).toNat / W = 0 by
      rw [show (0#64).toNat + ([] : List Byte).length + (W - 1) = W - 1 from Nat.zero_add _, Nat.div_eq_of_lt (by omega)]
      simp]
    rfl
  have hWlt : W < 2 ^ 64 := by omega
  have eW : (f.bpw * f.wpl).toNat = W := by rw [BitVec.toNat_mul, hW, Nat.mod_eq_of_lt hWlt]
  have em : (f.bpw * f.wpl - 1#64).toNat = W - 1 := by
    rw [BitVec.toNat_sub, eW, show (1#64).toNat = 1 from rfl]
    omega
  have e2 : (start + BitVec.ofNat 64 data.length + (f.bpw * f.wpl - 1#64)).toNat = start.toNat + data.length + (W - 1) := by
    rw [BitVec.toNat_add, e1, em, Nat.mod_eq_of_lt (by omega)]
  have hb : 0 < f.bpw.toNat := by
    rcases Nat.eq_zero_or_pos f.bpw.toNat with h | h
    · rw [h] at hW; omega
    · exact h
  have hbeg := and_mask start _ k (by rw [em, hWd])
  have hstop := and_mask (start + BitVec.ofNat 64 data.length + (f.bpw * f.wpl - 1#64)) _ k (by rw [em, hWd])
  rw [hWd] at hbeg hstop
  rw [e2] at hstop
  have q1 := Nat.div_mul_le_self (start.toNat + data.length + (W - 1)) W
  have q2 := Nat.div_mul_le_self start.toNat W
  have q3 : start.toNat / W ≤ (start.toNat + data.length + (W - 1)) / W := Nat.div_le_div_right (by omega)
  generalize (start.toNat + data.length + (W - 1)) / W = B at *
  generalize hAd : start.toNat / W = A at *
  have q4 : A * W + (B - A) * W = B * W := by rw [← Nat.add_mul]; congr 1; omega
  have hnf : B - A < fuel := by
    have : (B - A) * 1 ≤ (B - A) * W := Nat.mul_le_mul_left _ hW0
    omega
  have := lines_eq f data start (start + BitVec.ofNat 64 data.length)
    ((start + BitVec.ofNat 64 data.length + (f.bpw * f.wpl - 1#64)) &&& ~~~(f.bpw * f.wpl - 1#64)) e1 hb (by omega) (by omega) fuel (by omega)
    (B - A) fuel
    (start &&& ~~~(f.bpw * f.wpl - 1#64)) (by rw [hW, hbeg]; omega) (by rw [hW, hbeg, hstop]; omega)
    (by
      intro h0
      rw [hW, hbeg, hstop]
      have : (B - A - 1) * W + W = (B - A) * W := by rw [← Nat.succ_mul]; congr 1; omega
      omega) hnf
  rw [hbeg, show idx start.toNat data.length (A * W) = 0 by simp only [idx]; omega] at this
  unfold dump
  simp only []
  exact this

/-- C54: the lines show addresses without gap, and what they show is each byte of the data, once and in order. -/
theorem dump_each_byte_once (first : Nat) (data : List Byte) (a n W : Nat) (h1 : a ≤ first) (h2 : first + data.length ≤ a + n * W) :
    (List.range' a n W).flatMap (fun b => List.range' b W) = List.range' a (n * W) ∧
    (List.range' a (n * W)).filterMap (byteAt first data) = data := by
  refine ⟨range_blocks W n a, ?_⟩
  have e : List.range' a (n * W) = List.range' a (first - a) ++ (List.range' first data.length ++
      List.range' (first + data.length) (a + n * W - (first + data.length))) := by
    rw [List.range'_append_1]
    have : first = a + (first - a) := by omega
    conv => rhs; arg 2; arg 1; rw [this]
    rw [List.range'_append_1]
    congr 1
    omega
  rw [e, List.filterMap_append, List.filterMap_append, filterMap_range]
  have z1 : (List.range' a (first - a)).filterMap (byteAt first data) = [] := by
    rw [List.filterMap_eq_nil_iff]
    intro x hx
    have := (List.mem_range'_1.1 hx).2
    unfold byteAt
    rw [if_neg (by omega)]
  have z2 : (List.range' (first + data.length) (a + n * W - (first + data.length))).filterMap (byteAt first data) = [] := by
    rw [List.filterMap_eq_nil_iff]
    intro x hx
    have := (List.mem_range'_1.1 hx).1
    unfold byteAt
    rw [if_pos (by omega)]
    exact List.getElem?_eq_none (by omega)
  rw [z1, z2]
  simp

/-- C54: the digits show the number. -/
theorem dump_hex_value (upper : Bool) (k n : Nat) (h : n < 16 ^ k) : (hex upper k n).length = k ∧ value (hex upper k n) = n := by
  induction k generalizing n with
  | zero =>
    have : n = 0 := by simpa using h
    subst this
    exact ⟨rfl, rfl⟩
  | succ k ih =>
    have hd : n / 16 < 16 ^ k := by
      rw [Nat.div_lt_iff_lt_mul (by omega)]
      rw [Nat.pow_succ] at h
      exact h
    obtain ⟨h1, h2⟩ := ih (n / 16) hd
    refine ⟨by simp [hex, h1], ?_⟩
    simp only [value, hex] at h2 ⊢
    rw [List.foldl_append, h2]
    simp only [List.foldl_cons, List.foldl_nil]
    rw [digit_value upper (n % 16) (Nat.mod_lt _ (by omega))]
    exact Nat.div_add_mod n 16

/-- The last bytes of the address space are not shown at all: the address of the end overflows. -/
theorem dump_wrap_counterexample (f : Format) (data : List Byte) (h : data.length = 16) (hb : f.bpw = 4#64) (hw : f.wpl = 4#64) (fuel : Nat) :
    dump f data (0#64 - 16#64) (fuel + 1) = some [] := by
  unfold dump lines
  simp only [h, hb, hw]
  rw [if_neg (by decide)]

/-- Different addresses are shown as the same. -/
theorem dump_address_counterexample (upper : Bool) (a : BitVec 64) : address upper (a + 0x100000000#64) = address upper a := by
  have e : (0x100000000#64).toNat = 2 ^ 32 := by decide
  have : (a + 0x100000000#64).toNat % 2 ^ 32 = a.toNat % 2 ^ 32 := by
    rw [BitVec.toNat_add, e]
    omega
  unfold address
  rw [this]

/-- If the length of a line is no power of two, there may be a line that shows no data. -/
theorem dump_width_counterexample :
    dump ⟨false, 46#8, 0, 1#64, 3#64, [], [], [], 32#8, 32#8, []⟩ ([65#8, 66#8, 67#8]) 0#64 8 =
      some (showLines ⟨false, 46#8, 0, 1#64, 3#64, [], [], [], 32#8, 32#8, []⟩ 0 ([65#8, 66#8, 67#8]) 0 2) := by
  decide +kernel

/-- 37 bytes at an address that is no multiple of sixteen, to which the theorems apply. -/
example : (general true 46#8 2).bpw.toNat * (general true 46#8 2).wpl.toNat = 2 ^ 4 ∧
    (0x1007#64).toNat + (List.replicate 37 65#8).length + 2 ^ 4 ≤ 2 ^ 64 := by decide

end Diminuto.Dump
