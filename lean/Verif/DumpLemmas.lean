import Verif.DumpSpec

/-!
# Lemmas: Dump (C54)
-/

namespace Diminuto.Dump

/-- The index of the byte that is shown at an address or next after it. -/
def idx (first len a : Nat) : Nat := min (a - first) len

theorem bytes_eq (f : Format) (data : List Byte) (first last word : BitVec 64) (hl : last.toNat = first.toNat + data.length) :
    ∀ (k fuel : Nat) (hh : BitVec 64), hh.toNat + k = word.toNat → k < fuel →
      bytes f data first last word fuel hh (idx first.toNat data.length hh.toNat) =
        some ((List.range' hh.toNat k).flatMap (showByte f first.toNat data), word, idx first.toNat data.length word.toNat) := by
  intro k
  induction k with
  | zero =>
    intro fuel hh h hf
    obtain ⟨fuel, rfl⟩ : ∃ m, fuel = m + 1 := ⟨fuel - 1, by omega⟩
    have e : hh = word := BitVec.eq_of_toNat_eq (by omega)
    subst e
    simp [bytes]
  | succ k ih =>
    intro fuel hh h hf
    obtain ⟨fuel, rfl⟩ : ∃ m, fuel = m + 1 := ⟨fuel - 1, by omega⟩
    have hw := word.isLt
    have e1 : (hh + 1#64).toNat = hh.toNat + 1 := by
      rw [BitVec.toNat_add, show (1#64).toNat = 1 from rfl, Nat.mod_eq_of_lt (by omega)]
    have hlt : hh < word := by rw [BitVec.lt_def]; omega
    have ih' := ih fuel (hh + 1#64) (by omega) (by omega)
    rw [e1] at ih'
    unfold bytes
    rw [if_pos hlt, List.range'_succ, List.flatMap_cons]
    by_cases hc : (first ≤ hh && hh < last) = true
    · rw [hc]
      simp only [Bool.and_eq_true, decide_eq_true_eq, BitVec.le_def, BitVec.lt_def] at hc
      have ei : idx first.toNat data.length hh.toNat = hh.toNat - first.toNat := by simp only [idx]; omega
      have ei' : idx first.toNat data.length (hh.toNat + 1) = hh.toNat - first.toNat + 1 := by simp only [idx]; omega
      have hin : hh.toNat - first.toNat < data.length := by omega
      rw [ei'] at ih'
      simp only [Bool.not_true, Bool.false_eq_true, if_false]
      rw [ei, List.getElem?_eq_getElem hin, Option.bind_some, ih', Option.bind_some]
      simp only [showByte, byteAt, if_pos hc.1, List.getElem?_eq_getElem hin]
    · have hc' : (first ≤ hh && hh < last) = false := by simpa using hc
      rw [hc']
      simp only [Bool.and_eq_true, decide_eq_true_eq, BitVec.le_def, BitVec.lt_def] at hc
      have ei' : idx first.toNat data.length hh.toNat = idx first.toNat data.length (hh.toNat + 1) := by simp only [idx]; omega
      simp only [Bool.not_false, if_true]
      rw [ei', ih', Option.bind_some]
      have : byteAt first.toNat data hh.toNat = none := by
        unfold byteAt
        split
        · exact List.getElem?_eq_none (by omega)
        · rfl
      simp only [showByte, this]

theorem chars_eq (f : Format) (data : List Byte) (first last line : BitVec 64) (hl : last.toNat = first.toNat + data.length) :
    ∀ (k fuel : Nat) (hh : BitVec 64), hh.toNat + k = line.toNat → k < fuel →
      chars f data first last line fuel hh (idx first.toNat data.length hh.toNat) =
        some ((List.range' hh.toNat k).flatMap (showChar f first.toNat data), line, idx first.toNat data.length line.toNat) := by
  intro k
  induction k with
  | zero =>
    intro fuel hh h hf
    obtain ⟨fuel, rfl⟩ : ∃ m, fuel = m + 1 := ⟨fuel - 1, by omega⟩
    have e : hh = line := BitVec.eq_of_toNat_eq (by omega)
    subst e
    simp [chars]
  | succ k ih =>
    intro fuel hh h hf
    obtain ⟨fuel, rfl⟩ : ∃ m, fuel = m + 1 := ⟨fuel - 1, by omega⟩
    have hw := line.isLt
    have e1 : (hh + 1#64).toNat = hh.toNat + 1 := by
      rw [BitVec.toNat_add, show (1#64).toNat = 1 from rfl, Nat.mod_eq_of_lt (by omega)]
    have hlt : hh < line := by rw [BitVec.lt_def]; omega
    have ih' := ih fuel (hh + 1#64) (by omega) (by omega)
    rw [e1] at ih'
    unfold chars
    rw [if_pos hlt, List.range'_succ, List.flatMap_cons]
    by_cases hc : (first ≤ hh && hh < last) = true
    · rw [hc]
      simp only [Bool.and_eq_true, decide_eq_true_eq, BitVec.le_def, BitVec.lt_def] at hc
      have ei : idx first.toNat data.length hh.toNat = hh.toNat - first.toNat := by simp only [idx]; omega
      have ei' : idx first.toNat data.length (hh.toNat + 1) = hh.toNat - first.toNat + 1 := by simp only [idx]; omega
      have hin : hh.toNat - first.toNat < data.length := by omega
      rw [ei'] at ih'
      simp only [Bool.not_true, Bool.false_eq_true, if_false]
      rw [ei, List.getElem?_eq_getElem hin, Option.bind_some, ih', Option.bind_some]
      simp only [showChar, byteAt, if_pos hc.1, List.getElem?_eq_getElem hin, Bool.and_eq_true, decide_eq_true_eq, BitVec.le_def,
        List.singleton_append]
      rfl
    · have hc' : (first ≤ hh && hh < last) = false := by simpa using hc
      rw [hc']
      simp only [Bool.and_eq_true, decide_eq_true_eq, BitVec.le_def, BitVec.lt_def] at hc
      have ei' : idx first.toNat data.length hh.toNat = idx first.toNat data.length (hh.toNat + 1) := by simp only [idx]; omega
      simp only [Bool.not_false, if_true]
      rw [ei', ih', Option.bind_some]
      have : byteAt first.toNat data hh.toNat = none := by
        unfold byteAt
        split
        · exact List.getElem?_eq_none (by omega)
        · rfl
      simp only [showChar, this, List.singleton_append]

theorem words_eq (f : Format) (data : List Byte) (first last line : BitVec 64) (hl : last.toNat = first.toNat + data.length)
    (hb : 0 < f.bpw.toNat) (fuel : Nat) (hf : f.bpw.toNat < fuel) :
    ∀ (k n : Nat) (hh : BitVec 64), hh.toNat + k * f.bpw.toNat = line.toNat → k < n →
      words f data first last line fuel n hh (idx first.toNat data.length hh.toNat) =
        some ((List.range' hh.toNat k f.bpw.toNat).flatMap (fun w =>
          (List.range' w f.bpw.toNat).flatMap (showByte f first.toNat data) ++ f.wordsep), line, idx first.toNat data.length line.toNat) := by
  intro k
  induction k with
  | zero =>
    intro n hh h hn
    obtain ⟨n, rfl⟩ : ∃ m, n = m + 1 := ⟨n - 1, by omega⟩
    have e : hh = line := BitVec.eq_of_toNat_eq (by omega)
    subst e
    simp [words]
  | succ k ih =>
    intro n hh h hn
    obtain ⟨n, rfl⟩ : ∃ m, n = m + 1 := ⟨n - 1, by omega⟩
    have hw := line.isLt
    rw [Nat.succ_mul] at h
    have e1 : (hh + f.bpw).toNat = hh.toNat + f.bpw.toNat := by
      rw [BitVec.toNat_add, Nat.mod_eq_of_lt]
      have := Nat.zero_le (k * f.bpw.toNat)
      omega
    have hlt : hh < line := by rw [BitVec.lt_def]; omega
    unfold words
    rw [if_pos hlt, List.range'_succ, List.flatMap_cons, bytes_eq f data first last (hh + f.bpw) hl f.bpw.toNat fuel hh (by omega) hf,
      Option.bind_some]
    simp only []
    rw [ih n (hh + f.bpw) (by omega) (by omega), Option.bind_some, e1]

theorem lines_eq (f : Format) (data : List Byte) (first last stop : BitVec 64) (hl : last.toNat = first.toNat + data.length)
    (hb : 0 < f.bpw.toNat) (hW : f.bpw.toNat * f.wpl.toNat < 2 ^ 64) (hW0 : 0 < f.bpw.toNat * f.wpl.toNat)
    (fuel : Nat) (hf : f.bpw.toNat * f.wpl.toNat < fuel) :
    ∀ (k n : Nat) (here : BitVec 64), here.toNat + k * (f.bpw.toNat * f.wpl.toNat) < 2 ^ 64 →
      stop.toNat ≤ here.toNat + k * (f.bpw.toNat * f.wpl.toNat) →
      (0 < k → here.toNat + (k - 1) * (f.bpw.toNat * f.wpl.toNat) < stop.toNat) → k < n →
      lines f data first last stop fuel n here (idx first.toNat data.length here.toNat) =
        some (showLines f first.toNat data here.toNat k) := by
  intro k
  induction k with
  | zero =>
    intro n here h1 h2 h3 hn
    obtain ⟨n, rfl⟩ : ∃ m, n = m + 1 := ⟨n - 1, by omega⟩
    unfold lines
    rw [if_neg (by rw [BitVec.lt_def]; omega)]
    simp [showLines]
  | succ k ih =>
    intro n here h1 h2 h3 hn
    obtain ⟨n, rfl⟩ : ∃ m, n = m + 1 := ⟨n - 1, by omega⟩
    generalize hWd : f.bpw.toNat * f.wpl.toNat = W at *
    rw [Nat.succ_mul] at h1 h2
    simp only [Nat.add_sub_cancel] at h3
    have h3 := h3 (by omega)
    have hk := Nat.zero_le (k * W)
    have e0 : (f.bpw * f.wpl).toNat = W := by rw [BitVec.toNat_mul, hWd, Nat.mod_eq_of_lt hW]
    have e1 : (here + f.bpw * f.wpl).toNat = here.toNat + W := by
      rw [BitVec.toNat_add, e0, Nat.mod_eq_of_lt (by omega)]
    have hwp : 0 < f.wpl.toNat := by
      rcases Nat.eq_zero_or_pos f.wpl.toNat with h | h
      · rw [h] at hWd; omega
      · exact h
    have hbf : f.bpw.toNat < fuel := by
      have : f.bpw.toNat * 1 ≤ f.bpw.toNat * f.wpl.toNat := Nat.mul_le_mul_left _ hwp
      omega
    have hwf : f.wpl.toNat < fuel := by
      have : 1 * f.wpl.toNat ≤ f.bpw.toNat * f.wpl.toNat := Nat.mul_le_mul_right _ hb
      omega
    unfold lines
    rw [if_pos (by rw [BitVec.lt_def]; omega)]
    simp only []
    rw [words_eq f data first last _ hl hb fuel hbf f.wpl.toNat fuel here (by rw [e1, Nat.mul_comm, hWd]) hwf, Option.bind_some,
      chars_eq f data first last _ hl W fuel here (by rw [e1]) hf, Option.bind_some]
    simp only []
    rw [ih n (here + f.bpw * f.wpl) (by omega) (by omega) ?_ (by omega), Option.bind_some]
    · rw [e1]
      simp only [showLines, hWd]
      rw [List.range'_succ, List.flatMap_cons]
      simp only [showLine, address, hWd]
    · intro hk0
      rw [e1]
      have : (k - 1) * W + W = k * W := by
        rw [← Nat.succ_mul]; congr 1; omega
      omega

/-- Masking splits a number. -/
theorem and_add (x m : BitVec 64) : (x &&& m).toNat + (x &&& ~~~m).toNat = x.toNat := by
  have h : (x &&& m) + (x &&& ~~~m) = x := by
    rw [BitVec.add_eq_or_of_and_eq_zero]
    · ext i hi
      simp only [BitVec.getElem_or, BitVec.getElem_and, BitVec.getElem_not]
      cases x[i] <;> cases m[i] <;> rfl
    · ext i hi
      simp only [BitVec.getElem_and, BitVec.getElem_not, BitVec.getElem_zero]
      cases x[i] <;> cases m[i] <;> rfl
  have h1 : (x &&& ~~~m).toNat ≤ (~~~m).toNat := by rw [BitVec.toNat_and]; exact Nat.and_le_right
  have h2 : (x &&& m).toNat ≤ m.toNat := by rw [BitVec.toNat_and]; exact Nat.and_le_right
  have h3 : (~~~m).toNat = 2 ^ 64 - 1 - m.toNat := BitVec.toNat_not
  have h4 := m.isLt
  have := congrArg BitVec.toNat h
  rw [BitVec.toNat_add, Nat.mod_eq_of_lt (by omega)] at this
  exact this

theorem and_mask (x m : BitVec 64) (k : Nat) (hm : m.toNat = 2 ^ k - 1) : (x &&& ~~~m).toNat = x.toNat / 2 ^ k * 2 ^ k := by
  have h := and_add x m
  have h2 : (x &&& m).toNat = x.toNat % 2 ^ k := by
    rw [BitVec.toNat_and, hm, Nat.and_two_pow_sub_one_eq_mod]
  have h3 := Nat.div_add_mod x.toNat (2 ^ k)
  rw [Nat.mul_comm] at h3
  omega

theorem range_blocks (W : Nat) : ∀ (n a : Nat), (List.range' a n W).flatMap (fun b => List.range' b W) = List.range' a (n * W) := by
  intro n
  induction n with
  | zero => intro a; simp
  | succ n ih =>
    intro a
    rw [List.range'_succ, List.flatMap_cons, ih, Nat.succ_mul, Nat.add_comm (n * W) W, ← List.range'_append_1]

theorem filterMap_ext {α β : Type} (f g : α → Option β) : ∀ (l : List α), (∀ a ∈ l, f a = g a) → l.filterMap f = l.filterMap g := by
  intro l
  induction l with
  | nil => intro _; rfl
  | cons a l ih =>
    intro h
    rw [List.filterMap_cons, List.filterMap_cons, h a (by simp), ih (fun b hb => h b (by simp [hb]))]

theorem filterMap_range (data : List Byte) : ∀ (first : Nat), (List.range' first data.length).filterMap (byteAt first data) = data := by
  induction data with
  | nil => intro first; rfl
  | cons b data ih =>
    intro first
    rw [List.length_cons, List.range'_succ, List.filterMap_cons]
    simp only [byteAt, Nat.le_refl, if_true, Nat.sub_self, List.getElem?_cons_zero]
    congr 1
    refine Eq.trans ?_ (ih (first + 1))
    apply filterMap_ext
    intro a ha
    have := (List.mem_range'_1.1 ha).1
    simp only [byteAt]
    rw [if_pos (by omega), if_pos this]
    rw [show a - first = (a - (first + 1)) + 1 by omega, List.getElem?_cons_succ]

theorem digit_value (upper : Bool) (n : Nat) (h : n < 16) :
    (if (digit upper n).toNat < 58 then (digit upper n).toNat - 48 else
      if (digit upper n).toNat < 91 then (digit upper n).toNat - 55 else (digit upper n).toNat - 87) = n := by
  have : ∀ (u : Bool) (m : Fin 16), (if (digit u m.val).toNat < 58 then (digit u m.val).toNat - 48 else
      if (digit u m.val).toNat < 91 then (digit u m.val).toNat - 55 else (digit u m.val).toNat - 87) = m.val := by decide
  exact this upper ⟨n, h⟩

end Diminuto.Dump
