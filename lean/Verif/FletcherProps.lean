import Verif.FletcherLemmas

/-!
# Properties C01 and C02: the Fletcher-16 checksum
-/

namespace Diminuto.Fletcher

/-! ## Specification

The textbook sums, defined on positions rather than by running counters. -/

/-- Plain sum of the message bytes. -/
def specSum (m : List Byte) : Nat := (m.map BitVec.toNat).sum

/-- Weighted sum: the byte at index `i` of an `n` byte message has weight `n - i`. -/
def specWeighted (m : List Byte) : Nat :=
  (m.mapIdx fun i x => (m.length - i) * x.toNat).sum

/-- Calling the function on each piece in turn, carrying the counters. -/
def pieces (s : State) : List (List Byte) → State
  | [] => s
  | p :: ps => pieces (fletcher16 p s).2 ps

/-! ## C01 -/

theorem specSum_eq (m : List Byte) : specSum m = sum m := by
  induction m with
  | nil => rfl
  | cons x xs ih => simp [specSum, sum] at *; omega

theorem specWeighted_eq (m : List Byte) : specWeighted m = wsum m := by
  induction m with
  | nil => rfl
  | cons x xs ih =>
    rw [wsum, ← ih]
    simp only [specWeighted, List.mapIdx_cons, List.length_cons, List.sum_cons, Nat.sub_zero]
    congr 2
    apply List.ext_getElem
    · simp
    · intro i h1 h2
      simp

/-- C01 (incremental): processing a message in any pieces gives the same counters
as one call over the concatenation, for all starting counters. -/
theorem fletcher_pieces (s : State) (ps : List (List Byte)) :
    pieces s ps = (fletcher16 ps.flatten s).2 := by
  induction ps generalizing s with
  | nil => rfl
  | cons p ps ih =>
    simp only [pieces, ih, fletcher16, List.flatten_cons, run_append]

/-- C01 (value): for any message and any starting counters below 255 the
counters are the textbook sums modulo 255, and the returned checksum is
`256 * B + A`. -/
theorem fletcher_value (s : State) (m : List Byte)
    (ha : s.a.toNat < 255) (hb : s.b.toNat < 255) :
    (fletcher16 m s).2.a.toNat = (s.a.toNat + specSum m) % 255 ∧
    (fletcher16 m s).2.b.toNat =
      (s.b.toNat + m.length * s.a.toNat + specWeighted m) % 255 ∧
    (fletcher16 m s).1.toNat =
      256 * (fletcher16 m s).2.b.toNat + (fletcher16 m s).2.a.toNat := by
  have hlt := run_lt s m (Or.inr ⟨ha, hb⟩)
  refine ⟨?_, ?_, ?_⟩
  · rw [specSum_eq, ← run_a_mod, Nat.mod_eq_of_lt hlt.1]; rfl
  · rw [specWeighted_eq, ← run_b_mod, Nat.mod_eq_of_lt hlt.2]; rfl
  · show (result (run s m)).toNat = 256 * (run s m).b.toNat + (run s m).a.toNat
    rw [result_toNat]; omega

-- Non-vacuity: the published vector "abcde" has Fletcher-16 checksum 0xC8F0.
example : (fletcher16 [0x61, 0x62, 0x63, 0x64, 0x65] ⟨0, 0⟩).1 = 0xC8F0 := by decide
example : pieces ⟨0, 0⟩ [[0x61], [], [0x62, 0x63], [0x64, 0x65]] = ⟨0xF0, 0xC8⟩ := by decide

/-! ## C02 -/

/-- Two bytes are confusable when they are equal or one is `00` and the other `FF`. -/
def Confusable (x y : Byte) : Prop := x = y ∨ (x = 0 ∧ y = 0xff) ∨ (x = 0xff ∧ y = 0)

theorem confusable_iff (x y : Byte) : Confusable x y ↔ x.toNat % 255 = y.toNat % 255 := by
  have hx := x.isLt
  have hy := y.isLt
  unfold Confusable
  simp only [← BitVec.toNat_inj]
  have e0 : (0 : Byte).toNat = 0 := rfl
  have e1 : (0xff : Byte).toNat = 255 := rfl
  rw [e0, e1]
  omega

/-- C02 (strong form): two messages that agree except for two adjacent bytes have
the same checksum exactly when both bytes are confusable.  This covers every
change of one byte, every change of two adjacent bytes and every adjacent
transposition. -/
theorem fletcher_two_adjacent (s : State) (p q : List Byte) (x y x' y' : Byte) :
    (fletcher16 (p ++ x :: y :: q) s).1 = (fletcher16 (p ++ x' :: y' :: q) s).1 ↔
      Confusable x x' ∧ Confusable y y' := by
  rw [confusable_iff, confusable_iff]
  have la := run_lt s (p ++ x :: y :: q) (Or.inl (by simp))
  have la' := run_lt s (p ++ x' :: y' :: q) (Or.inl (by simp))
  have a1 := run_a_mod s (p ++ x :: y :: q)
  have a2 := run_a_mod s (p ++ x' :: y' :: q)
  simp only [sum_append, sum] at a1 a2
  have b1 := run_b_mod (run s p) (x :: y :: q)
  have b2 := run_b_mod (run s p) (x' :: y' :: q)
  rw [← run_append] at b1 b2
  simp only [wsum, List.length_cons, Nat.add_mul, Nat.one_mul] at b1 b2
  have e1 : (q.length * x.toNat + q.length * y.toNat) = q.length * (x.toNat + y.toNat) := by
    rw [Nat.mul_add]
  have e2 : (q.length * x'.toNat + q.length * y'.toNat) = q.length * (x'.toNat + y'.toNat) := by
    rw [Nat.mul_add]
  have key : (x.toNat + y.toNat) % 255 = (x'.toNat + y'.toNat) % 255 →
      (q.length * (x.toNat + y.toNat)) % 255 = (q.length * (x'.toNat + y'.toNat)) % 255 := by
    intro h
    rw [Nat.mul_mod, h, ← Nat.mul_mod]
  constructor
  · intro h
    have h' := result_inj (show result (run s _) = result (run s _) from h)
    have ha := congrArg (fun t => t.a.toNat) h'
    have hb := congrArg (fun t => t.b.toNat) h'
    have hs : (x.toNat + y.toNat) % 255 = (x'.toNat + y'.toNat) % 255 := by omega
    have := key hs
    generalize q.length * (x.toNat + y.toNat) = u at *
    generalize q.length * (x'.toNat + y'.toNat) = v at *
    generalize q.length * x.toNat = u1 at *
    generalize q.length * y.toNat = u2 at *
    generalize q.length * x'.toNat = v1 at *
    generalize q.length * y'.toNat = v2 at *
    generalize q.length * (run s p).a.toNat = w at *
    omega
  · rintro ⟨h1, h2⟩
    have hs : (x.toNat + y.toNat) % 255 = (x'.toNat + y'.toNat) % 255 := by omega
    have := key hs
    have hst : run s (p ++ x :: y :: q) = run s (p ++ x' :: y' :: q) := by
      have hA : (run s (p ++ x :: y :: q)).a.toNat = (run s (p ++ x' :: y' :: q)).a.toNat := by
        omega
      have hB : (run s (p ++ x :: y :: q)).b.toNat = (run s (p ++ x' :: y' :: q)).b.toNat := by
        generalize q.length * (x.toNat + y.toNat) = u at *
        generalize q.length * (x'.toNat + y'.toNat) = v at *
        generalize q.length * x.toNat = u1 at *
        generalize q.length * y.toNat = u2 at *
        generalize q.length * x'.toNat = v1 at *
        generalize q.length * y'.toNat = v2 at *
        generalize q.length * (run s p).a.toNat = w at *
        omega
      revert hA hB
      generalize run s (p ++ x :: y :: q) = t1
      generalize run s (p ++ x' :: y' :: q) = t2
      cases t1; cases t2
      simp only [State.mk.injEq, BitVec.toNat_inj]
      exact fun h1 h2 => ⟨h1, h2⟩
    simp only [fletcher16, hst]

/-- C02: replacing one byte of a message leaves the checksum unchanged exactly
when the two values are equal or are `00` and `FF`, whatever the message, the
position and the starting counters. -/
theorem fletcher_one_byte (s : State) (p q : List Byte) (x x' : Byte) :
    (fletcher16 (p ++ x :: q) s).1 = (fletcher16 (p ++ x' :: q) s).1 ↔ Confusable x x' := by
  rw [confusable_iff]
  have la := run_lt s (p ++ x :: q) (Or.inl (by simp))
  have la' := run_lt s (p ++ x' :: q) (Or.inl (by simp))
  have a1 := run_a_mod s (p ++ x :: q)
  have a2 := run_a_mod s (p ++ x' :: q)
  simp only [sum_append, sum] at a1 a2
  have b1 := run_b_mod (run s p) (x :: q)
  have b2 := run_b_mod (run s p) (x' :: q)
  rw [← run_append] at b1 b2
  simp only [wsum, List.length_cons] at b1 b2
  constructor
  · intro h
    have h' := result_inj (show result (run s _) = result (run s _) from h)
    have ha := congrArg (fun t => t.a.toNat) h'
    omega
  · intro h1
    have hm : ((q.length + 1) * x.toNat) % 255 = ((q.length + 1) * x'.toNat) % 255 := by
      rw [Nat.mul_mod, h1, ← Nat.mul_mod]
    have hst : run s (p ++ x :: q) = run s (p ++ x' :: q) := by
      have hA : (run s (p ++ x :: q)).a.toNat = (run s (p ++ x' :: q)).a.toNat := by
        omega
      have hB : (run s (p ++ x :: q)).b.toNat = (run s (p ++ x' :: q)).b.toNat := by
        generalize (q.length + 1) * x.toNat = u at *
        generalize (q.length + 1) * x'.toNat = v at *
        generalize (q.length + 1) * (run s p).a.toNat = w at *
        omega
      revert hA hB
      generalize run s (p ++ x :: q) = t1
      generalize run s (p ++ x' :: q) = t2
      cases t1; cases t2
      simp only [State.mk.injEq, BitVec.toNat_inj]
      exact fun h1 h2 => ⟨h1, h2⟩
    simp only [fletcher16, hst]

-- Non-vacuity: both sides of the equivalences occur.
example : Confusable 0x00 0xff ∧ ¬ Confusable 0x41 0x42 := by
  constructor
  · exact Or.inr (Or.inl ⟨rfl, rfl⟩)
  · unfold Confusable; decide
example : (fletcher16 [1, 0x00, 2] ⟨0, 0⟩).1 = (fletcher16 [1, 0xff, 2] ⟨0, 0⟩).1 ∧
    (fletcher16 [1, 2] ⟨0, 0⟩).1 ≠ (fletcher16 [2, 1] ⟨0, 0⟩).1 := by decide

end Diminuto.Fletcher
