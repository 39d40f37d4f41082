import Verif.EndpointTextLemmas
import Verif.LogSpec
import Verif.NumberLemmas
import Verif.TimeProps

/-!
# Lemmas: timestamps of log messages
-/

namespace Diminuto.Log
open Number (decimal decimal_small decimal_large)
open Time (civil Fits)

theorem before_append (p : List Byte) {s t : List Byte} (h : Before s t) : Before (p ++ s) (p ++ t) := by
  induction p with
  | nil => exact h
  | cons a p ih => exact .tail ih

theorem padded_succ (k n : Nat) (hk : 1 ≤ k) : padded (k + 1) n = padded k (n / 10) ++ [BitVec.ofNat 8 (48 + n % 10)] := by
  unfold padded
  by_cases h : n < 10
  · rw [decimal_small h, show n / 10 = 0 by omega, decimal_small (by omega), show n % 10 = n by omega]
    simp only [List.length_singleton, Nat.add_sub_cancel]
    obtain ⟨j, rfl⟩ : ∃ j, k = j + 1 := ⟨k - 1, by omega⟩
    rw [List.replicate_succ', Nat.add_sub_cancel]
  · rw [decimal_large h]
    simp only [List.length_append, List.length_singleton, Nat.add_sub_add_right, List.append_assoc]

theorem padded_one {n : Nat} (h : n < 10) : padded 1 n = [BitVec.ofNat 8 (48 + n)] := by
  simp [padded, decimal_small h]

theorem padded_before (k : Nat) : ∀ (m n : Nat) (s t : List Byte), m < n → n < 10 ^ (k + 1) → Before (padded (k + 1) m ++ s) (padded (k + 1) n ++ t) := by
  induction k with
  | zero =>
    intro m n s t h hn
    rw [padded_one (by omega), padded_one (by omega)]
    refine .head ?_
    rw [BitVec.toNat_ofNat, BitVec.toNat_ofNat]; omega
  | succ k ih =>
    intro m n s t h hn
    rw [padded_succ (k + 1) m (by omega), padded_succ (k + 1) n (by omega), List.append_assoc, List.append_assoc]
    rw [Nat.pow_succ] at hn
    by_cases hq : m / 10 < n / 10
    · exact ih _ _ _ _ hq (by omega)
    · rw [show m / 10 = n / 10 by omega]
      refine before_append _ (.head ?_)
      rw [BitVec.toNat_ofNat, BitVec.toNat_ofNat]; omega

theorem signed_before (k : Nat) {i j : Int} (s t : List Byte) (h0 : 0 ≤ i) (h : i < j) (hj : j < 10 ^ (k + 1)) : Before (signed (k + 1) i ++ s) (signed (k + 1) j ++ t) := by
  unfold signed
  rw [if_neg (by omega), if_neg (by omega)]
  refine padded_before k _ _ s t (by omega) ?_
  have : ((10 ^ (k + 1) : Nat) : Int) = 10 ^ (k + 1) := by simp
  omega

theorem stamp_before {f g : Time.Fields} (hf : Ordinary f) (hg : Ordinary g) (h : Earlier f g) (s t : List Byte) : Before (stamp f ++ s) (stamp g ++ t) := by
  obtain ⟨f1, f2, f3, f4, f5, f6, f7, f8, f9, f10, f11, f12, f13, f14⟩ := hf
  obtain ⟨g1, g2, g3, g4, g5, g6, g7, g8, g9, g10, g11, g12, g13, g14⟩ := hg
  unfold stamp
  simp only [List.append_assoc]
  rcases h with h | ⟨h1, h⟩
  · exact signed_before 3 _ _ f1 h (by omega)
  rw [h1]
  refine before_append _ (before_append _ ?_)
  rcases h with h | ⟨h2, h⟩
  · exact signed_before 1 _ _ (by omega) h (by omega)
  rw [h2]
  refine before_append _ (before_append _ ?_)
  rcases h with h | ⟨h3, h⟩
  · exact signed_before 1 _ _ (by omega) h (by omega)
  rw [h3]
  refine before_append _ (before_append _ ?_)
  rcases h with h | ⟨h4, h⟩
  · exact signed_before 1 _ _ (by omega) h (by omega)
  rw [h4]
  refine before_append _ (before_append _ ?_)
  rcases h with h | ⟨h5, h⟩
  · exact signed_before 1 _ _ (by omega) h (by omega)
  rw [h5]
  refine before_append _ (before_append _ ?_)
  rcases h with h | ⟨h6, h⟩
  · exact signed_before 1 _ _ (by omega) h (by omega)
  rw [h6]
  refine before_append _ (before_append _ ?_)
  exact padded_before 8 _ _ _ _ (by omega) (by omega)

/-- The parts of a date as it is computed. -/
theorem civil_parts (z : Int) : ∃ era doe yoe doy mp : Int, z + 719468 = era * 146097 + doe ∧ 0 ≤ doe ∧ doe < 146097 ∧ yoe = (doe - doe / 1460 + doe / 36524 - doe / 146096) / 365 ∧
    doy = doe - (365 * yoe + yoe / 4 - yoe / 100) ∧ 0 ≤ doy ∧ doy ≤ 365 ∧ 0 ≤ yoe ∧ yoe ≤ 399 ∧ mp = (5 * doy + 2) / 153 ∧
    civil z = (yoe + era * 400 + (if (if mp < 10 then mp + 3 else mp - 9) ≤ 2 then 1 else 0), if mp < 10 then mp + 3 else mp - 9, doy - (153 * mp + 2) / 5 + 1) := by
  have h1 : 0 ≤ (z + 719468) % 146097 := by omega
  have h2 : (z + 719468) % 146097 < 146097 := by omega
  have h0 : z + 719468 = (z + 719468) / 146097 * 146097 + (z + 719468) % 146097 := by omega
  have hc : civil z = (((z + 719468) % 146097 - (z + 719468) % 146097 / 1460 + (z + 719468) % 146097 / 36524 - (z + 719468) % 146097 / 146096) / 365 + _ * 400 + _, _, _) := rfl
  have h4 := Time.doy_range ((z + 719468) % 146097) _ h1 h2 rfl
  have h3 : ∀ doe : Int, 0 ≤ doe → doe < 146097 → 0 ≤ (doe - doe / 1460 + doe / 36524 - doe / 146096) / 365 ∧ (doe - doe / 1460 + doe / 36524 - doe / 146096) / 365 ≤ 399 := by
    intro doe d1 d2
    clear h0 h1 h2 h4 hc
    omega
  exact ⟨(z + 719468) / 146097, (z + 719468) % 146097, _, _, _, h0, h1, h2, rfl, rfl, h4.1, h4.2, (h3 _ h1 h2).1, (h3 _ h1 h2).2, rfl, hc⟩

/-- The years of an era do not go back. -/
theorem year_monotone (k : Nat) (x : Int) : (x - x / 1460 + x / 36524 - x / 146096) / 365 ≤ (x + k - (x + k) / 1460 + (x + k) / 36524 - (x + k) / 146096) / 365 := by
  have step : ∀ y : Int, y - y / 1460 + y / 36524 - y / 146096 ≤ (y + 1) - (y + 1) / 1460 + (y + 1) / 36524 - (y + 1) / 146096 := by
    intro y
    have a1 : (y + 1) / 1460 ≤ y / 1460 + 1 := by omega
    have a2 : y / 36524 ≤ (y + 1) / 36524 := by omega
    have a3 : (y + 1) / 146096 ≤ y / 146096 + 1 := by omega
    by_cases c : (y + 1) / 146096 = y / 146096
    · omega
    · have a4 : (y + 1) / 36524 = y / 36524 + 1 := by omega
      omega
  have all : x - x / 1460 + x / 36524 - x / 146096 ≤ x + k - (x + k) / 1460 + (x + k) / 36524 - (x + k) / 146096 := by
    induction k with
    | zero => simp
    | succ k ih =>
      refine Int.le_trans ih ?_
      have := step (x + k)
      rw [show x + ((k + 1 : Nat) : Int) = x + k + 1 by omega]
      exact this
  exact Int.ediv_le_ediv (by omega) all

theorem civil_range (z : Int) : 1 ≤ (civil z).2.1 ∧ (civil z).2.1 ≤ 12 ∧ 1 ≤ (civil z).2.2 ∧ (civil z).2.2 ≤ 31 := by
  obtain ⟨era, doe, yoe, doy, mp, -, -, -, -, -, h1, h2, -, -, h3, h4⟩ := civil_parts z
  rw [h4]
  simp only []
  subst h3
  refine ⟨by split <;> omega, by split <;> omega, by omega, by omega⟩

theorem civil_year (z : Int) (h0 : 0 ≤ z) (h1 : z ≤ 106752) : 1970 ≤ (civil z).1 ∧ (civil z).1 ≤ 9999 := by
  obtain ⟨era, doe, yoe, doy, mp, h2, h3, h4, -, h6, h7, h8, h9, h10, h11, h12⟩ := civil_parts z
  rw [h12]
  simp only []
  clear h12
  have e1 : era = 4 ∧ 135080 ≤ doe ∨ era = 5 := by omega
  have e2 : 365 * yoe + yoe / 4 - yoe / 100 ≤ doe ∧ doe ≤ 365 * yoe + yoe / 4 - yoe / 100 + 365 := by omega
  clear h2 h3 h4
  refine ⟨?_, ?_⟩
  · rcases e1 with ⟨rfl, hd⟩ | rfl
    · have : 369 ≤ yoe := by clear h6 h11; omega
      by_cases hy : yoe = 369
      · subst hy
        have : 306 ≤ doy := by omega
        have : 10 ≤ mp := by omega
        rw [if_pos (by split <;> omega)]
        omega
      · split <;> omega
    · split <;> omega
  · have : yoe + era * 400 ≤ 2399 := by omega
    split <;> omega

/-- Later days have later dates. -/
theorem civil_before {y z : Int} (h : y < z) : (civil y).1 < (civil z).1 ∨ (civil y).1 = (civil z).1 ∧ ((civil y).2.1 < (civil z).2.1 ∨ (civil y).2.1 = (civil z).2.1 ∧ (civil y).2.2 < (civil z).2.2) := by
  obtain ⟨era, doe, yoe, doy, mp, h2, h3, h4, h5, h6, h7, h8, h9, h10, h11, h12⟩ := civil_parts y
  obtain ⟨era', doe', yoe', doy', mp', h2', h3', h4', h5', h6', h7', h8', h9', h10', h11', h12'⟩ := civil_parts z
  rw [h12, h12']
  simp only []
  clear h12 h12'
  have he : era < era' ∨ era = era' ∧ doe < doe' := by clear h5 h5' h6 h6' h11 h11'; omega
  have hy : doe < doe' → yoe ≤ yoe' := by
    intro hd
    have := year_monotone (doe' - doe).toNat doe
    rw [show doe + ((doe' - doe).toNat : Int) = doe' by clear h5 h5' h6 h6' h11 h11' this; omega, ← h5, ← h5'] at this
    exact this
  clear h5 h5' h2 h2'
  have hm : doy < doy' → mp < mp' ∨ mp = mp' ∧ doy < doy' := by clear h6 h6' he hy; omega
  have m1 : 0 ≤ mp ∧ mp ≤ 11 := by clear h6 h6' he hy hm; omega
  have m2 : 0 ≤ mp' ∧ mp' ≤ 11 := by clear h6 h6' he hy hm; omega
  clear h11 h11'
  have key : yoe + era * 400 < yoe' + era' * 400 ∨ yoe + era * 400 = yoe' + era' * 400 ∧ (mp < mp' ∨ mp = mp' ∧ doy < doy') := by
    rcases he with he | ⟨rfl, hd⟩
    · left; clear h6 h6' hm hy; omega
    · have hy := hy hd
      by_cases hy' : yoe < yoe'
      · left; clear h6 h6' hm; omega
      · right
        have e : yoe = yoe' := by clear h6 h6' hm; omega
        exact ⟨by rw [e], hm (by rw [h6, h6', e]; clear h6 h6' hm; omega)⟩
  clear h6 h6' he hm hy
  generalize yoe + era * 400 = a at *
  generalize yoe' + era' * 400 = b at *
  by_cases c1 : mp < 10 <;> by_cases c2 : mp' < 10
  · simp only [if_pos c1, if_pos c2, if_neg (show ¬ mp + 3 ≤ 2 by omega), if_neg (show ¬ mp' + 3 ≤ 2 by omega)]
    rcases key with k | ⟨k1, k2 | ⟨k2, k3⟩⟩
    · left; omega
    · right; exact ⟨by omega, Or.inl (by omega)⟩
    · right; subst k2; exact ⟨by omega, Or.inr ⟨rfl, by omega⟩⟩
  · simp only [if_pos c1, if_neg c2, if_neg (show ¬ mp + 3 ≤ 2 by omega), if_pos (show mp' - 9 ≤ 2 by omega)]
    left; omega
  · simp only [if_neg c1, if_pos c2, if_pos (show mp - 9 ≤ 2 by omega), if_neg (show ¬ mp' + 3 ≤ 2 by omega)]
    have : a < b := by omega
    by_cases e : a + 1 < b
    · left; omega
    · right; exact ⟨by omega, Or.inl (by omega)⟩
  · simp only [if_neg c1, if_neg c2, if_pos (show mp - 9 ≤ 2 by omega), if_pos (show mp' - 9 ≤ 2 by omega)]
    rcases key with k | ⟨k1, k2 | ⟨k2, k3⟩⟩
    · left; omega
    · right; exact ⟨by omega, Or.inl (by omega)⟩
    · right; subst k2; exact ⟨by omega, Or.inr ⟨rfl, by omega⟩⟩

/-- The fields of a time from the Epoch on. -/
theorem fields_eq (t : Int) (h0 : 0 ≤ t) (h1 : t ≤ 9223372036854775807) :
    fields Time.gregorian t = some (some ⟨(civil (t / 1000000000 / 86400)).1, (civil (t / 1000000000 / 86400)).2.1, (civil (t / 1000000000 / 86400)).2.2, t / 1000000000 % 86400 / 3600,
      t / 1000000000 % 3600 / 60, t / 1000000000 % 60, t % 1000000000⟩) := by
  have hs := Time.time_separate_exact t ⟨by omega, h1⟩ (by omega)
  obtain ⟨s, f, hs, h2, h3, h4⟩ := hs
  have e1 : s = t / 1000000000 := by omega
  have e2 : f = t % 1000000000 := by omega
  unfold fields
  rw [if_neg (by rw [Time.ERROR]; omega), Time.zulu, hs]
  simp only [Option.map_some, Time.gregorian, e1, e2, if_pos h0]
  congr 3 <;> omega

/-! ## The parts of a header -/

theorem split_at {c : Byte} {a b x y : List Byte} (ha : c ∉ a) (hb : c ∉ b) (h : a ++ c :: x = b ++ c :: y) : a = b ∧ x = y := by
  induction a generalizing b with
  | nil =>
    cases b with
    | nil => simpa using h
    | cons d b =>
      simp at h hb
      exact absurd h.1 hb.1
  | cons d a ih =>
    cases b with
    | nil =>
      simp at h ha
      exact absurd h.1.symm ha.1
    | cons e b =>
      simp at h ha hb
      obtain ⟨rfl, h⟩ := h
      obtain ⟨h1, h2⟩ := ih ha.2 hb.2 h
      exact ⟨by rw [h1], h2⟩

theorem decimal_not (c : Byte) (hc : 57 < c.toNat ∨ c.toNat < 48) (n : Nat) : c ∉ Number.decimal n := by
  intro h
  have := Number.decimal_range n c h
  omega

theorem nibble_range (n : Nat) (h : n < 16) : 48 ≤ (nibble n).toNat ∧ (nibble n).toNat ≤ 102 := by
  unfold nibble
  rw [BitVec.toNat_ofNat]
  split <;> omega

theorem nibble_inj {m n : Nat} (hm : m < 16) (hn : n < 16) (h : nibble m = nibble n) : m = n := by
  have := congrArg BitVec.toNat h
  unfold nibble at this
  rw [BitVec.toNat_ofNat, BitVec.toNat_ofNat] at this
  split at this <;> split at this <;> omega

theorem hex_range (n : Nat) : ∀ b ∈ hexadecimal n, 48 ≤ b.toNat ∧ b.toNat ≤ 102 := by
  induction n using hexadecimal.induct with
  | case1 n h =>
    rw [hexadecimal, if_pos h]
    intro b hb
    rw [List.mem_singleton] at hb
    subst hb
    exact nibble_range n h
  | case2 n h ih =>
    rw [hexadecimal, if_neg h]
    intro b hb
    rcases List.mem_append.mp hb with hb | hb
    · exact ih b hb
    · rw [List.mem_singleton] at hb
      subst hb
      exact nibble_range _ (by omega)

theorem hex_ne (n : Nat) : hexadecimal n ≠ [] := by
  rw [hexadecimal]
  split <;> simp

theorem hex_inj (m : Nat) : ∀ n, hexadecimal m = hexadecimal n → m = n := by
  induction m using hexadecimal.induct with
  | case1 m hm =>
    intro n h
    rw [hexadecimal, if_pos hm] at h
    by_cases hn : n < 16
    · rw [hexadecimal, if_pos hn] at h
      exact nibble_inj hm hn (by simpa using h)
    · rw [hexadecimal, if_neg hn] at h
      have := congrArg List.length h
      have h2 := List.length_pos_iff.mpr (hex_ne (n / 16))
      simp at this
      exact absurd this (hex_ne _)
  | case2 m hm ih =>
    intro n h
    rw [hexadecimal, if_neg hm] at h
    by_cases hn : n < 16
    · rw [hexadecimal.eq_def n, if_pos hn] at h
      have := congrArg List.length h
      simp at this
      exact absurd this (hex_ne _)
    · rw [hexadecimal.eq_def n, if_neg hn] at h
      obtain ⟨h1, h2⟩ := List.append_inj' h rfl
      have := ih _ h1
      have := nibble_inj (by omega) (by omega) (by simpa using h2 : nibble (m % 16) = nibble (n % 16))
      omega

theorem padded_not (c : Byte) (hc : 57 < c.toNat ∨ c.toNat < 48) (k n : Nat) : c ∉ padded k n := by
  unfold padded
  rw [List.mem_append]
  rintro (h | h)
  · rw [List.mem_replicate] at h
    rw [h.2] at hc
    simp at hc
  · exact decimal_not c hc n h

theorem signed_not (c : Byte) (hc : 57 < c.toNat ∨ c.toNat < 45) (k : Nat) (i : Int) : c ∉ signed k i := by
  unfold signed
  split
  · rw [List.mem_cons]
    rintro (h | h)
    · rw [h] at hc; simp at hc
    · exact padded_not c (by omega) _ _ h
  · exact padded_not c (by omega) _ _

theorem priorities_mod (p : BitVec 32) : priorities p = priorities (BitVec.ofNat 32 (p.toNat % 8)) := by
  have e : (p &&& 7#32) = (BitVec.ofNat 32 (p.toNat % 8) &&& 7#32) := by
    apply BitVec.eq_of_toNat_eq
    rw [BitVec.toNat_and, BitVec.toNat_and]
    have h0 : (BitVec.ofNat 32 (p.toNat % 8)).toNat = p.toNat % 8 % 2 ^ 32 := BitVec.toNat_ofNat _ _
    have h1 := Nat.and_two_pow_sub_one_eq_mod p.toNat 3
    have h2 := Nat.and_two_pow_sub_one_eq_mod (p.toNat % 8 % 2 ^ 32) 3
    have h3 : (7#32).toNat = 2 ^ 3 - 1 := by decide
    rw [h3, h0, h1, h2]
    omega
  unfold priorities
  rw [e]

theorem priorities_fin : ∀ m n : Fin 8, priorities (BitVec.ofNat 32 m.val) = priorities (BitVec.ofNat 32 n.val) → m = n := by decide +kernel

theorem priorities_inj {p q : BitVec 32} (h : priorities p = priorities q) : p.toNat % 8 = q.toNat % 8 := by
  rw [priorities_mod p, priorities_mod q] at h
  have := priorities_fin ⟨p.toNat % 8, by omega⟩ ⟨q.toNat % 8, by omega⟩ h
  exact congrArg Fin.val this

theorem priorities_not_fin : ∀ n : Fin 8, 62#8 ∉ priorities (BitVec.ofNat 32 n.val) := by decide +kernel

theorem priorities_not (p : BitVec 32) : 62#8 ∉ priorities p := by
  rw [priorities_mod p]
  exact priorities_not_fin ⟨p.toNat % 8, by omega⟩

theorem stamp_not (f : Time.Fields) : 34#8 ∉ stamp f := by
  have h1 : ∀ k i, 34#8 ∉ signed k i := fun k i => signed_not 34#8 (by decide) k i
  have h2 : 34#8 ∉ padded 9 f.tick.toNat := padded_not 34#8 (by decide) _ _
  simp [stamp, h1, h2, Pin.ascii]

theorem header_split {w w' host host' x x' : List Byte} {priority priority' : BitVec 32} {pid pid' tid tid' : Nat} (hw : 34#8 ∉ w) (hw' : 34#8 ∉ w') (hh : 34#8 ∉ host) (hh' : 34#8 ∉ host')
    (h : w ++ [32#8, 34#8] ++ host ++ [34#8, 32#8, 60#8] ++ priorities priority ++ [62#8, 32#8, 91#8] ++ Number.decimal pid ++ [93#8, 32#8, 123#8] ++ hexadecimal tid ++ [125#8, 32#8] ++ x =
      w' ++ [32#8, 34#8] ++ host' ++ [34#8, 32#8, 60#8] ++ priorities priority' ++ [62#8, 32#8, 91#8] ++ Number.decimal pid' ++ [93#8, 32#8, 123#8] ++ hexadecimal tid' ++ [125#8, 32#8] ++ x') :
    w = w' ∧ host = host' ∧ priority.toNat % 8 = priority'.toNat % 8 ∧ pid = pid' ∧ tid = tid' ∧ x = x' := by
  simp only [List.append_assoc, List.cons_append, List.nil_append] at h
  have cut : ∀ (a b : List Byte), a ++ 32#8 :: 34#8 :: b = (a ++ [32#8]) ++ 34#8 :: b := by intro a b; simp
  rw [cut w, cut w'] at h
  obtain ⟨g1, h⟩ := split_at (by simpa using hw) (by simpa using hw') h
  obtain ⟨g2, h⟩ := split_at hh hh' h
  simp only [List.cons.injEq, true_and] at h
  obtain ⟨g3, h⟩ := split_at (priorities_not priority) (priorities_not priority') h
  simp only [List.cons.injEq, true_and] at h
  obtain ⟨g4, h⟩ := split_at (decimal_not 93#8 (by decide) pid) (decimal_not 93#8 (by decide) pid') h
  simp only [List.cons.injEq, true_and] at h
  have hx : ∀ n, 125#8 ∉ hexadecimal n := by
    intro n hn
    have := hex_range n _ hn
    simp at this
  obtain ⟨g5, h⟩ := split_at (hx tid) (hx tid') h
  simp only [List.cons.injEq, true_and] at h
  exact ⟨List.append_cancel_right g1, g2, priorities_inj g3, EndpointText.decimal_inj g4, hex_inj _ _ g5, h⟩

end Diminuto.Log
