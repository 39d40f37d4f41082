import Verif.DumptoolSpec
import Verif.DumpProps

/-!
# Lemmas: the tool that dumps files
-/

namespace Diminuto.Dumptool

open Dump

theorem flatMap_ext {α β : Type} (f g : α → List β) : ∀ (l : List α), (∀ a ∈ l, f a = g a) → l.flatMap f = l.flatMap g
  | [], _ => rfl
  | a :: l, h => by
    rw [List.flatMap_cons, List.flatMap_cons, h a (List.mem_cons_self ..), flatMap_ext f g l fun b hb => h b (List.mem_cons_of_mem _ hb)]

theorem showLine_ext (x : Nat) (d : List Byte) (y : Nat) (e : List Byte) (a : Nat) (h : ∀ i, a ≤ i → i < a + 16 → byteAt x d i = byteAt y e i) :
    showLine lineFormat x d a = showLine lineFormat y e a := by
  unfold showLine
  have h1 : (List.range' a lineFormat.wpl.toNat lineFormat.bpw.toNat).flatMap (fun w => (List.range' w lineFormat.bpw.toNat).flatMap (showByte lineFormat x d) ++ lineFormat.wordsep) =
      (List.range' a lineFormat.wpl.toNat lineFormat.bpw.toNat).flatMap (fun w => (List.range' w lineFormat.bpw.toNat).flatMap (showByte lineFormat y e) ++ lineFormat.wordsep) := by
    apply flatMap_ext
    intro w hw
    have e4 : lineFormat.bpw.toNat = 4 := rfl
    have e5 : lineFormat.wpl.toNat = 4 := rfl
    rw [e4, e5] at hw
    rw [e4]
    congr 1
    apply flatMap_ext
    intro i hi
    obtain ⟨j, hj, rfl⟩ := List.mem_range'.1 hw
    obtain ⟨k, hk, rfl⟩ := List.mem_range'.1 hi
    unfold showByte
    rw [h _ (by omega) (by omega)]
  have h2 : (List.range' a (lineFormat.bpw.toNat * lineFormat.wpl.toNat)).flatMap (showChar lineFormat x d) = (List.range' a (lineFormat.bpw.toNat * lineFormat.wpl.toNat)).flatMap (showChar lineFormat y e) := by
    apply flatMap_ext
    intro i hi
    have e4 : lineFormat.bpw.toNat * lineFormat.wpl.toNat = 16 := rfl
    rw [e4] at hi
    obtain ⟨k, hk, rfl⟩ := List.mem_range'.1 hi
    unfold showChar
    rw [h _ (by omega) (by omega)]
  rw [h1, h2]

theorem dump_shown (data : List Byte) (start : BitVec 64) (fuel : Nat) (hf : 2 ^ 64 < fuel) (h : start.toNat + data.length + 16 ≤ 2 ^ 64) :
    dump format data start fuel = some (shown start.toNat data) := by
  have := dump_exact_partial format data start 4 rfl h fuel hf
  rw [this]
  rfl

theorem fread_facts : ∀ (n : Nat) (s : List Event), ∃ used, s = used ++ (fread n s).2.1 ∧ bytesOf used = (fread n s).1 ∧ ((fread n s).2.2 = true ↔ .error ∈ used) ∧
    (fread n s).1.length ≤ n ∧ ((fread n s).1.length < n → (fread n s).2.1 = [] ∨ used.getLast? = some .eof ∨ used.getLast? = some .error)
  | 0, s => ⟨[], rfl, rfl, by simp [fread], by simp [fread], by simp [fread]⟩
  | n + 1, [] => ⟨[], rfl, rfl, by simp [fread], by simp [fread], by simp [fread]⟩
  | n + 1, .eof :: s => ⟨[.eof], rfl, rfl, by simp [fread], by simp [fread], by simp [fread]⟩
  | n + 1, .error :: s => ⟨[.error], rfl, rfl, by simp [fread], by simp [fread], by simp [fread]⟩
  | n + 1, .byte b :: s => by
    obtain ⟨used, h1, h2, h3, h4, h5⟩ := fread_facts n s
    refine ⟨.byte b :: used, ?_, ?_, ?_, ?_, ?_⟩
    · simp only [fread, List.cons_append]; rw [← h1]
    · simp only [fread, bytesOf, List.filterMap_cons]
      rw [← h2]; rfl
    · simp only [fread, List.mem_cons]
      rw [h3]
      simp
    · simp only [fread, List.length_cons]; omega
    · simp only [fread, List.length_cons]
      intro h
      rcases h5 (by omega) with h | h | h
      · exact .inl h
      · refine .inr (.inl ?_)
        rw [List.getLast?_cons, h]; rfl
      · refine .inr (.inr ?_)
        rw [List.getLast?_cons, h]; rfl

theorem fread_plain : ∀ (n : Nat) (data : List Byte), fread n (plain data) = (data.take n, plain (data.drop n), false)
  | 0, data => by simp [fread]
  | n + 1, [] => by simp [fread, plain]
  | n + 1, b :: data => by
    have := fread_plain n data
    unfold plain at this ⊢
    simp only [List.map_cons, fread, this, List.take_succ_cons, List.drop_succ_cons]

/-- What the loop does, from any offset. -/
theorem pour_facts (fuel : Nat) (hf : 2 ^ 64 < fuel) : ∀ (n : Nat) (s : List Event) (offset : BitVec 64), s.length < n → offset.toNat + s.length + 16 ≤ 2 ^ 64 →
    ∃ ps used rest, pour fuel n s offset = some (pieces offset.toNat ps, ps.flatten, rest, decide (.error ∈ used)) ∧ s = used ++ rest ∧ bytesOf used = ps.flatten ∧
      (∀ p ∈ ps, 0 < p.length ∧ p.length ≤ 16) ∧ (rest = [] ∨ used.getLast? = some .eof ∨ used.getLast? = some .error)
  | 0, _, _, h, _ => by omega
  | n + 1, s, offset, h, hfit => by
    obtain ⟨used, h1, h2, h3, h4, h5⟩ := fread_facts 16 s
    unfold pour
    have hb : (bytesOf used).length ≤ used.length := by unfold bytesOf; exact List.length_filterMap_le ..
    have hs : s.length = used.length + (fread 16 s).2.1.length := by
      conv => lhs; rw [h1]
      rw [List.length_append]
    by_cases h0 : (fread 16 s).1.length > 0
    · rw [if_pos h0]
      have e2 := congrArg List.length h2
      have ho : (offset + BitVec.ofNat 64 (fread 16 s).1.length).toNat = offset.toNat + (fread 16 s).1.length := by
        rw [BitVec.toNat_add, BitVec.toNat_ofNat]
        rw [Nat.mod_eq_of_lt (by omega : (fread 16 s).1.length < 2 ^ 64), Nat.mod_eq_of_lt (by omega)]
      rw [dump_shown _ offset fuel hf (by omega)]
      obtain ⟨ps, used', rest, g1, g2, g3, g4, g5⟩ := pour_facts fuel hf n (fread 16 s).2.1 (offset + BitVec.ofNat 64 (fread 16 s).1.length) (by omega) (by omega)
      simp only [Option.bind_some]
      rw [g1, ho]
      simp only [Option.bind_some]
      refine ⟨(fread 16 s).1 :: ps, used ++ used', rest, ?_, ?_, ?_, ?_, ?_⟩
      · rw [show ((fread 16 s).2.2 || decide (Event.error ∈ used')) = decide (Event.error ∈ used ++ used') from by
          rw [Bool.eq_iff_iff]; simp [h3]]
        rfl
      · conv => lhs; rw [h1, g2]
        rw [List.append_assoc]
      · unfold bytesOf at *
        rw [List.filterMap_append, h2, g3]; rfl
      · intro p hp
        rcases List.mem_cons.1 hp with rfl | hp
        · exact ⟨h0, h4⟩
        · exact g4 p hp
      · rcases g5 with g | g | g
        · exact .inl g
        · refine .inr (.inl ?_)
          rw [List.getLast?_append, g]; rfl
        · refine .inr (.inr ?_)
          rw [List.getLast?_append, g]; rfl
    · rw [if_neg h0]
      refine ⟨[], used, (fread 16 s).2.1, ?_, h1, ?_, by simp, h5 (by omega)⟩
      · rw [show decide (Event.error ∈ used) = (fread 16 s).2.2 from by rw [Bool.eq_iff_iff]; simp [h3]]
        rfl
      · rw [h2]
        exact List.eq_nil_of_length_eq_zero (by omega)

theorem whole_step (b : List Byte) (data : List Byte) (i : Nat) (hi : b.length = 16 * i) (hd : data ≠ []) :
    shown (16 * i) (data.take 16) = showLine lineFormat 0 (b ++ data) (16 * i) := by
  have hp : 0 < data.length := List.length_pos_iff.2 hd
  unfold shown showLines
  have ht : (data.take 16).length = min 16 data.length := List.length_take ..
  rw [show 16 * i / 16 * 16 = 16 * i from by omega, show (16 * i + (data.take 16).length + 15) / 16 - 16 * i / 16 = 1 from by omega]
  simp only [List.range'_one, List.flatMap_cons, List.flatMap_nil, List.append_nil]
  apply showLine_ext
  intro j h1 h2
  unfold byteAt
  rw [if_pos h1, if_pos (by omega), List.getElem?_append_right (by omega), List.getElem?_take]
  rw [if_pos (by omega), hi]
  simp

theorem pour_plain (fuel : Nat) (hf : 2 ^ 64 < fuel) : ∀ (n : Nat) (data b : List Byte) (i : Nat), data.length < n → b.length = 16 * i → 16 * i + data.length + 16 ≤ 2 ^ 64 →
    pour fuel n (plain data) (BitVec.ofNat 64 (16 * i)) = some ((List.range' i ((data.length + 15) / 16)).flatMap (fun j => showLine lineFormat 0 (b ++ data) (16 * j)), data, [], false)
  | 0, _, _, _, h, _, _ => by omega
  | n + 1, data, b, i, h, hb, hfit => by
    unfold pour
    rw [fread_plain]
    simp only []
    by_cases hd : data = []
    · subst hd
      rfl
    · have hp : 0 < data.length := List.length_pos_iff.2 hd
      have ht : (data.take 16).length = min 16 data.length := List.length_take ..
      have eo : (BitVec.ofNat 64 (16 * i)).toNat = 16 * i := by rw [BitVec.toNat_ofNat, Nat.mod_eq_of_lt (by omega)]
      rw [if_pos (by omega), dump_shown _ _ fuel hf (by omega), eo, whole_step b data i hb hd]
      simp only [Option.bind_some]
      by_cases hs : data.length ≤ 16
      · have ed : data.drop 16 = [] := List.drop_eq_nil_of_le hs
        rw [ed]
        obtain ⟨m, rfl⟩ : ∃ m, n = m + 1 := ⟨n - 1, by omega⟩
        rw [show (data.length + 15) / 16 = 1 from by omega]
        simp [pour, fread, plain, List.take_of_length_le hs]
      · have hl : (data.drop 16).length = data.length - 16 := List.length_drop ..
        have et : (data.take 16).length = 16 := by omega
        have := pour_plain fuel hf n (data.drop 16) (b ++ data.take 16) (i + 1) (by omega) (by rw [List.length_append]; omega) (by omega)
        rw [show BitVec.ofNat 64 (16 * i) + BitVec.ofNat 64 (data.take 16).length = BitVec.ofNat 64 (16 * (i + 1)) from by
          rw [et, ← BitVec.ofNat_add]; rfl]
        rw [this]
        simp only [Option.bind_some, Bool.or_self, List.append_assoc, List.take_append_drop]
        rw [show (data.length + 15) / 16 = ((data.drop 16).length + 15) / 16 + 1 from by omega, List.range'_succ, List.flatMap_cons]

theorem dumps_plain (fuel : Nat) (hf : 2 ^ 64 < fuel) (data : List Byte) (h : data.length + 16 ≤ 2 ^ 64) : dumps fuel (plain data) = some (whole data, data, [], false) := by
  unfold dumps whole
  have := pour_plain fuel hf (data.length + 1) data [] 0 (by omega) rfl (by omega)
  rw [List.nil_append] at this
  rw [List.range_eq_range']
  rw [show (plain data).length = data.length from List.length_map ..]
  exact this

end Diminuto.Dumptool
