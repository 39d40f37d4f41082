import Verif.DriverSpec

/-!
# Lemmas about the memory mapped driver
-/

namespace Diminuto.Driver

theorem and_low (x : Nat) (n : Nat) (hn : n = 1 ∨ n = 2 ∨ n = 4 ∨ n = 8) : x &&& alignment n = x % n := by
  rcases hn with rfl | rfl | rfl | rfl
  · simp [alignment, Nat.mod_one]
  · exact Nat.and_two_pow_sub_one_eq_mod x 1
  · exact Nat.and_two_pow_sub_one_eq_mod x 2
  · exact Nat.and_two_pow_sub_one_eq_mod x 3

theorem width_cases {w : BitVec 32} {n : Nat} (h : w.toNat = n) (hn : n = 1 ∨ n = 2 ∨ n = 4 ∨ n = 8) : (w = 1#32 ∧ n = 1) ∨ (w = 2#32 ∧ n = 2) ∨ (w = 4#32 ∧ n = 4) ∨ (w = 8#32 ∧ n = 8) := by
  rcases hn with rfl | rfl | rfl | rfl
  · exact Or.inl ⟨BitVec.eq_of_toNat_eq h, rfl⟩
  · exact Or.inr (Or.inl ⟨BitVec.eq_of_toNat_eq h, rfl⟩)
  · exact Or.inr (Or.inr (Or.inl ⟨BitVec.eq_of_toNat_eq h, rfl⟩))
  · exact Or.inr (Or.inr (Or.inr ⟨BitVec.eq_of_toNat_eq h, rfl⟩))

theorem get_word {w : BitVec 32} {n : Nat} (h : w.toNat = n) (hn : n = 1 ∨ n = 2 ∨ n = 4 ∨ n = 8) (mem : Nat → Byte) (address : Nat) (datum : List Byte) : get mem address w datum = getWord mem address n datum := by
  rcases width_cases h hn with ⟨rfl, rfl⟩ | ⟨rfl, rfl⟩ | ⟨rfl, rfl⟩ | ⟨rfl, rfl⟩ <;> rfl

theorem put_word {w : BitVec 32} {n : Nat} (h : w.toNat = n) (hn : n = 1 ∨ n = 2 ∨ n = 4 ∨ n = 8) (mem : Nat → Byte) (address : Nat) (datum : List Byte) : put mem address w datum = putWord mem address n datum := by
  rcases width_cases h hn with ⟨rfl, rfl⟩ | ⟨rfl, rfl⟩ | ⟨rfl, rfl⟩ | ⟨rfl, rfl⟩ <;> rfl

theorem modify_word {op : Op} {n : Nat} (h : op.width.toNat = n) (hn : n = 1 ∨ n = 2 ∨ n = 4 ∨ n = 8) (cmd : BitVec 32) (tmp : List Byte) :
    modify cmd op tmp = some (if cmd = SET then setWord n op tmp else clearWord n op tmp) := by
  obtain ⟨o, w, da, ma⟩ := op
  simp only at h
  rcases width_cases h hn with ⟨rfl, rfl⟩ | ⟨rfl, rfl⟩ | ⟨rfl, rfl⟩ | ⟨rfl, rfl⟩ <;> rfl

theorem bad_width {w : BitVec 32} (h : w.toNat ≠ 1 ∧ w.toNat ≠ 2 ∧ w.toNat ≠ 4 ∧ w.toNat ≠ 8) : w ≠ 1#32 ∧ w ≠ 2#32 ∧ w ≠ 4#32 ∧ w ≠ 8#32 := by
  obtain ⟨h1, h2, h3, h4⟩ := h
  refine ⟨?_, ?_, ?_, ?_⟩ <;> (rintro rfl; simp_all)

theorem get_bad {w : BitVec 32} (h : w.toNat ≠ 1 ∧ w.toNat ≠ 2 ∧ w.toNat ≠ 4 ∧ w.toNat ≠ 8) (mem : Nat → Byte) (address : Nat) (datum : List Byte) : get mem address w datum = (-EINVAL, datum, []) := by
  obtain ⟨h1, h2, h3, h4⟩ := bad_width h
  unfold get
  rw [if_neg h1, if_neg h2, if_neg h3, if_neg h4]

theorem put_bad {w : BitVec 32} (h : w.toNat ≠ 1 ∧ w.toNat ≠ 2 ∧ w.toNat ≠ 4 ∧ w.toNat ≠ 8) (mem : Nat → Byte) (address : Nat) (datum : List Byte) : put mem address w datum = (-EINVAL, mem, []) := by
  obtain ⟨h1, h2, h3, h4⟩ := bad_width h
  unfold put
  rw [if_neg h1, if_neg h2, if_neg h3, if_neg h4]

theorem get_aligned (mem : Nat → Byte) {address n : Nat} (hn : n = 1 ∨ n = 2 ∨ n = 4 ∨ n = 8) (h : n ∣ address) (datum : List Byte) :
    getWord mem address n datum = (0, word mem address n ++ datum.drop n, [⟨address, n, false⟩]) := by
  unfold getWord
  rw [and_low _ _ hn, if_neg (by rw [Nat.mod_eq_zero_of_dvd h]; simp)]

theorem put_aligned (mem : Nat → Byte) {address n : Nat} (hn : n = 1 ∨ n = 2 ∨ n = 4 ∨ n = 8) (h : n ∣ address) (datum : List Byte) :
    putWord mem address n datum = (0, store mem address (datum.take n), [⟨address, n, true⟩]) := by
  unfold putWord
  rw [and_low _ _ hn, if_neg (by rw [Nat.mod_eq_zero_of_dvd h]; simp)]

theorem get_unaligned (mem : Nat → Byte) {address n : Nat} (hn : n = 1 ∨ n = 2 ∨ n = 4 ∨ n = 8) (h : ¬ n ∣ address) (datum : List Byte) : getWord mem address n datum = (-EINVAL, datum, []) := by
  unfold getWord
  rw [and_low _ _ hn, if_pos (fun h0 => h (Nat.dvd_of_mod_eq_zero h0))]

theorem put_unaligned (mem : Nat → Byte) {address n : Nat} (hn : n = 1 ∨ n = 2 ∨ n = 4 ∨ n = 8) (h : ¬ n ∣ address) (datum : List Byte) : putWord mem address n datum = (-EINVAL, mem, []) := by
  unfold putWord
  rw [and_low _ _ hn, if_pos (fun h0 => h (Nat.dvd_of_mod_eq_zero h0))]

theorem store_changes (mem : Nat → Byte) (address n : Nat) (l : List Byte) (hl : n ≤ l.length) (f : Nat → Byte → Byte) (hf : ∀ i, i < n → byte l i = f i (mem (address + i))) :
    Changes mem (store mem address (l.take n)) address n f := by
  intro x
  unfold store
  by_cases hx : address ≤ x
  · rw [if_pos hx]
    by_cases hn : x < address + n
    · have hi : x - address < n := by omega
      rw [if_pos ⟨hx, hn⟩, List.getElem?_take_of_lt hi, List.getElem?_eq_getElem (by omega)]
      have := hf _ hi
      rw [show address + (x - address) = x by omega] at this
      rw [← this]
      simp [byte, List.getElem?_eq_getElem (show x - address < l.length by omega)]
    · rw [if_neg (fun h => hn h.2), List.getElem?_eq_none (by rw [List.length_take]; omega)]
      rfl
  · rw [if_neg hx, if_neg (fun h => hx h.1)]

theorem word_length (mem : Nat → Byte) (address n : Nat) : (word mem address n).length = n := by simp [word]

theorem combine_byte (f : Byte → Byte → Byte) (n : Nat) (a b : List Byte) (ha : n ≤ a.length) (hb : n ≤ b.length) (i : Nat) (hi : i < n) : byte (combine f n a b) i = f (byte a i) (byte b i) := by
  unfold combine byte
  rw [List.getElem?_append_left (by simp; omega), List.getElem?_zipWith, List.getElem?_take_of_lt hi, List.getElem?_take_of_lt hi, List.getElem?_eq_getElem (show i < a.length by omega),
    List.getElem?_eq_getElem (show i < b.length by omega)]
  rfl

theorem combine_length (f : Byte → Byte → Byte) (n : Nat) (a b : List Byte) (ha : n ≤ a.length) (hb : n ≤ b.length) : (combine f n a b).length = a.length := by
  simp [combine]
  omega

theorem word_byte (mem : Nat → Byte) (address n : Nat) (rest : List Byte) (i : Nat) (hi : i < n) : byte (word mem address n ++ rest) i = mem (address + i) := by
  unfold byte
  rw [List.getElem?_append_left (by rw [word_length]; exact hi)]
  simp [word, hi]

end Diminuto.Driver
