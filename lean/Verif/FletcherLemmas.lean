import Verif.Fletcher

/-! Helper lemmas for the Fletcher-16 properties. -/

namespace Diminuto.Fletcher

theorem step_a (s : State) (x : Byte) :
    (step s x).a.toNat = (s.a.toNat + x.toNat) % 255 := by
  simp only [step, BitVec.toNat_ofNat]
  omega

theorem step_b (s : State) (x : Byte) :
    (step s x).b.toNat = (s.b.toNat + (s.a.toNat + x.toNat)) % 255 := by
  simp only [step, BitVec.toNat_ofNat]
  omega

theorem run_append (s : State) (xs ys : List Byte) :
    run s (xs ++ ys) = run (run s xs) ys := by
  simp [run, List.foldl_append]

theorem run_cons (s : State) (x : Byte) (xs : List Byte) :
    run s (x :: xs) = run (step s x) xs := rfl

/-- Sum of the bytes. -/
def sum : List Byte → Nat
  | [] => 0
  | x :: xs => x.toNat + sum xs

/-- Sum of the bytes, the last weighted 1, the one before it 2, and so on. -/
def wsum : List Byte → Nat
  | [] => 0
  | x :: xs => (xs.length + 1) * x.toNat + wsum xs

theorem run_a_mod (s : State) (xs : List Byte) :
    (run s xs).a.toNat % 255 = (s.a.toNat + sum xs) % 255 := by
  induction xs generalizing s with
  | nil => simp [run, sum]
  | cons x xs ih =>
    rw [run_cons, ih, step_a, sum]
    omega

theorem run_b_mod (s : State) (xs : List Byte) :
    (run s xs).b.toNat % 255 =
      (s.b.toNat + xs.length * s.a.toNat + wsum xs) % 255 := by
  induction xs generalizing s with
  | nil => simp [run, wsum]
  | cons x xs ih =>
    rw [run_cons, ih, step_a, step_b, wsum, List.length_cons]
    simp only [Nat.add_mul, Nat.one_mul]
    have h1 : (xs.length * ((s.a.toNat + x.toNat) % 255)) % 255
        = (xs.length * s.a.toNat + xs.length * x.toNat) % 255 := by
      rw [Nat.mul_mod, Nat.mod_mod, ← Nat.mul_mod, Nat.mul_add]
    generalize xs.length * ((s.a.toNat + x.toNat) % 255) = p at *
    generalize xs.length * s.a.toNat = q at *
    generalize xs.length * x.toNat = r at *
    omega

theorem run_lt (s : State) (xs : List Byte)
    (h : xs ≠ [] ∨ (s.a.toNat < 255 ∧ s.b.toNat < 255)) :
    (run s xs).a.toNat < 255 ∧ (run s xs).b.toNat < 255 := by
  induction xs generalizing s with
  | nil => simpa [run] using h
  | cons x xs ih =>
    rw [run_cons]
    apply ih
    right
    rw [step_a, step_b]
    omega

theorem sum_append (xs ys : List Byte) : sum (xs ++ ys) = sum xs + sum ys := by
  induction xs with
  | nil => simp [sum]
  | cons x xs ih => simp [sum, ih]; omega

theorem result_toNat (s : State) : (result s).toNat = s.b.toNat * 256 + s.a.toNat := by
  have ha := s.a.isLt
  have hb := s.b.isLt
  simp only [result, BitVec.toNat_or, BitVec.toNat_shiftLeft, BitVec.toNat_setWidth]
  rw [Nat.mod_eq_of_lt (by omega : s.b.toNat < 2 ^ 16),
    Nat.mod_eq_of_lt (by omega : s.a.toNat < 2 ^ 16), Nat.shiftLeft_eq,
    Nat.mod_eq_of_lt (by omega)]
  have := Nat.two_pow_add_eq_or_of_lt (i := 8) (b := s.a.toNat) (by omega) s.b.toNat
  rw [Nat.mul_comm, ← this]

theorem result_inj {s t : State} (h : result s = result t) : s = t := by
  have h' := congrArg BitVec.toNat h
  rw [result_toNat, result_toNat] at h'
  have h1 := s.a.isLt
  have h2 := t.a.isLt
  cases s; cases t
  simp only at *
  congr <;> apply BitVec.eq_of_toNat_eq <;> omega

end Diminuto.Fletcher
