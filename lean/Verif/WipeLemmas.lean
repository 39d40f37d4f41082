import Verif.WipeSpec

/-!
# Lemmas for the tool that wipes a storage device
-/

namespace Diminuto.Wipe

theorem next_toNat (v : BitVec 64) : (next v).toNat = (v.toNat * 4294967311 + 17) % 2 ^ 64 := by
  unfold next A1 A0
  rw [BitVec.toNat_add, BitVec.toNat_mul]
  simp

theorem word_next {seed v : BitVec 64} {i : Nat} (h : v.toNat = word seed i) : (next v).toNat = word seed (i + 1) := by
  rw [next_toNat, h]; rfl

theorem bytes_length (little : Bool) (v : BitVec 64) : (bytes little v).length = 8 := by cases little <;> rfl

theorem extract_toNat (v : BitVec 64) (j : Nat) : (v.extractLsb' (8 * j) 8).toNat = v.toNat / 256 ^ j % 256 := by
  rw [BitVec.extractLsb'_toNat, Nat.shiftRight_eq_div_pow, Nat.pow_mul]

theorem bytes_get (little : Bool) (v : BitVec 64) (j : Nat) (hj : j < 8) :
    ∃ b, (bytes little v)[j]? = some b ∧ b.toNat = v.toNat / 256 ^ (if little then j else 7 - j) % 256 := by
  have key : ∀ j : Nat, j < 8 → (bytes little v)[j]? = some (v.extractLsb' (8 * (if little then j else 7 - j)) 8) := by
    intro j hj
    match j, hj with
    | 0, _ => cases little <;> rfl
    | 1, _ => cases little <;> rfl
    | 2, _ => cases little <;> rfl
    | 3, _ => cases little <;> rfl
    | 4, _ => cases little <;> rfl
    | 5, _ => cases little <;> rfl
    | 6, _ => cases little <;> rfl
    | 7, _ => cases little <;> rfl
  exact ⟨_, key j hj, extract_toNat v _⟩

/-- Bytes are the pattern from an offset on. -/
def From (little : Bool) (seed : BitVec 64) (o : Nat) (l : List Byte) : Prop := ∀ k b, l[k]? = some b → b.toNat = pattern little seed (o + k)

theorem from_bytes (little : Bool) {seed v : BitVec 64} {i : Nat} (h : v.toNat = word seed i) : From little seed (8 * i) (bytes little v) := by
  intro k b hk
  have hlt : k < 8 := by
    have := (List.getElem?_eq_some_iff.mp hk).1
    rwa [bytes_length] at this
  obtain ⟨b', h1, h2⟩ := bytes_get little v k hlt
  rw [hk] at h1
  cases h1
  rw [h2, h]
  unfold pattern
  rw [show (8 * i + k) / 8 = i by omega, show (8 * i + k) % 8 = k by omega]

theorem from_append {little : Bool} {seed : BitVec 64} {o : Nat} {x y : List Byte} (hx : From little seed o x) (hy : From little seed (o + x.length) y) :
    From little seed o (x ++ y) := by
  intro k b hk
  by_cases h : k < x.length
  · rw [List.getElem?_append_left h] at hk
    exact hx k b hk
  · rw [List.getElem?_append_right (by omega)] at hk
    have := hy _ b hk
    rwa [show o + x.length + (k - x.length) = o + k by omega] at this

theorem from_drop {little : Bool} {seed : BitVec 64} {o : Nat} {x : List Byte} (n : Nat) (hx : From little seed o x) : From little seed (o + n) (x.drop n) := by
  intro k b hk
  rw [List.getElem?_drop] at hk
  have := hx _ b hk
  rwa [← Nat.add_assoc] at this

theorem from_take {little : Bool} {seed : BitVec 64} {o : Nat} {x : List Byte} (n : Nat) (hx : From little seed o x) : From little seed o (x.take n) := by
  intro k b hk
  rw [List.getElem?_take] at hk
  split at hk
  · exact hx k b hk
  · cases hk

theorem from_nil {little : Bool} {seed : BitVec 64} {o : Nat} : From little seed o [] := by intro k b hk; simp at hk

theorem from_unique {little : Bool} {seed : BitVec 64} {o : Nat} {x y : List Byte} (hl : x.length = y.length) (hx : From little seed o x) (hy : From little seed o y) : x = y := by
  apply List.ext_getElem hl
  intro i h1 h2
  have a := hx i x[i] (List.getElem?_eq_getElem h1)
  have b := hy i y[i] (List.getElem?_eq_getElem h2)
  exact BitVec.eq_of_toNat_eq (by rw [a, b])

theorem fill_spec (little : Bool) (seed : BitVec 64) (n : Nat) : ∀ (i : Nat) (v : BitVec 64), v.toNat = word seed i →
    From little seed (8 * i) (fill little n v).1 ∧ (fill little n v).1.length = 8 * n ∧ (fill little n v).2.toNat = word seed (i + n) := by
  induction n with
  | zero => intro i v h; exact ⟨from_nil, rfl, h⟩
  | succ n ih =>
    intro i v h
    obtain ⟨h1, h2, h3⟩ := ih (i + 1) (next v) (word_next h)
    have hf : fill little (n + 1) v = (bytes little v ++ (fill little n (next v)).1, (fill little n (next v)).2) := rfl
    rw [hf]
    refine ⟨from_append (from_bytes little h) ?_, ?_, ?_⟩
    · rw [bytes_length, show 8 * i + 8 = 8 * (i + 1) by omega]; exact h1
    · rw [List.length_append, bytes_length, h2]; omega
    · rw [h3]; congr 1; omega

/-- The loop that verifies finds nothing exactly if what it looks at is the pattern; in any case the datum goes on. -/
theorem verify_spec (little : Bool) (seed : BitVec 64) (total got : Nat) (n : Nat) : ∀ (i : Nat) (data : List Byte) (v : BitVec 64), v.toNat = word seed i → 8 * n ≤ data.length →
    ((verify little total got n data v).1 = [] ↔ From little seed (8 * i) (data.take (8 * n))) ∧ (verify little total got n data v).2.toNat = word seed (i + n) := by
  induction n with
  | zero => intro i data v h _; exact ⟨⟨fun _ => by simpa using from_nil, fun _ => rfl⟩, h⟩
  | succ n ih =>
    intro i data v h hl
    obtain ⟨h1, h2⟩ := ih (i + 1) (data.drop 8) (next v) (word_next h) (by rw [List.length_drop]; omega)
    have hv : verify little total got (n + 1) data v =
      (if data.take 8 ≠ bytes little v then (total - got + (n + 1) * 8) :: (verify little total got n (data.drop 8) (next v)).1 else (verify little total got n (data.drop 8) (next v)).1,
        (verify little total got n (data.drop 8) (next v)).2) := rfl
    rw [hv]
    refine ⟨?_, by show _ = _; rw [h2]; congr 1; omega⟩
    have ht : data.take (8 * (n + 1)) = data.take 8 ++ (data.drop 8).take (8 * n) := by
      rw [show 8 * (n + 1) = 8 + 8 * n by omega, List.take_add]
    have hlen : (data.take 8).length = 8 := by rw [List.length_take]; omega
    rw [ht]
    by_cases he : data.take 8 = bytes little v
    · rw [if_neg (by simpa using he)]
      rw [h1]
      constructor
      · intro hh
        apply from_append
        · rw [he]; exact from_bytes little h
        · rw [hlen, show 8 * i + 8 = 8 * (i + 1) by omega]; exact hh
      · intro hh
        have := from_drop 8 hh
        rw [List.drop_append_of_le_length (by omega), List.drop_of_length_le (by omega)] at this
        exact this
    · rw [if_pos he]
      constructor
      · intro hh; cases hh
      · intro hh
        exfalso
        apply he
        have := from_take 8 hh
        rw [List.take_append_of_le_length (by omega), List.take_take] at this
        exact from_unique (by rw [hlen, bytes_length]) (by simpa using this) (from_bytes little h)

end Diminuto.Wipe
