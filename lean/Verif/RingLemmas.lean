import Verif.Ring

/-! Helper lemmas for the Ring properties. -/

namespace Diminuto.Ring

/-- `n` successive slots of a ring of `cap` slots, starting at `s`. -/
def slots (cap s n : Nat) : List Nat := (List.range n).map fun i => (s + i) % cap

theorem slots_length (cap s n : Nat) : (slots cap s n).length = n := by simp [slots]

theorem slots_add (cap s a b : Nat) :
    slots cap s (a + b) = slots cap s a ++ slots cap ((s + a) % cap) b := by
  simp only [slots, List.range_add, List.map_append, List.map_map]
  congr 1
  apply List.map_congr_left
  intro i _
  simp only [Function.comp_apply, Nat.mod_add_mod, Nat.add_assoc]

theorem slots_mod (cap s n : Nat) : slots cap (s % cap) n = slots cap s n := by
  simp [slots]

theorem slots_perm_range (cap s : Nat) (h : s < cap) :
    (slots cap s cap).Perm (List.range cap) := by
  have e : cap = (cap - s) + s := by omega
  have h1 : slots cap s cap = slots cap s (cap - s) ++ slots cap 0 s := by
    conv => lhs; arg 3; rw [e]
    rw [slots_add]
    have : (s + (cap - s)) % cap = 0 := by
      have : s + (cap - s) = cap := by omega
      rw [this, Nat.mod_self]
    rw [this]
  have h2 : List.range cap = slots cap 0 s ++ slots cap s (cap - s) := by
    have hs : s % cap = s := Nat.mod_eq_of_lt h
    have := slots_add cap 0 s (cap - s)
    rw [Nat.zero_add, hs] at this
    rw [← this]
    have hc : s + (cap - s) = cap := by omega
    rw [hc]
    simp only [slots, Nat.zero_add]
    symm
    rw [List.map_congr_left (g := id)]
    · simp
    · intro i hi
      exact Nat.mod_eq_of_lt (List.mem_range.mp hi)
  rw [h1, h2]
  exact List.perm_append_comm

/-- The representation invariant: positive capacity small enough for an `int`
index, and a producer index that is the consumer index plus the measure. -/
structure Inv (r : Ring) : Prop where
  pos : 0 < r.capacity.toNat
  small : r.capacity.toNat < 2 ^ 31
  le : r.measure.toNat ≤ r.capacity.toNat
  cons : r.consumer.toNat < r.capacity.toNat
  prod : r.producer.toNat = (r.consumer.toNat + r.measure.toNat) % r.capacity.toNat

theorem Inv.prod_lt {r : Ring} (h : Inv r) : r.producer.toNat < r.capacity.toNat := by
  rw [h.prod]; exact Nat.mod_lt _ h.pos

theorem init_inv (c : BitVec 32) (h0 : 0 < c.toNat) (h1 : c.toNat < 2 ^ 31) : Inv (init c) :=
  ⟨h0, h1, by simp [init], h0, by simp [init]⟩

theorem mod?_pos {x y : BitVec 32} (h : 0 < y.toNat) : mod? x y = some (x % y) := by
  unfold mod?
  rw [if_neg]
  rintro rfl
  simp at h

theorem toInt_small {x : BitVec 32} (h : x.toNat < 2 ^ 31) : x.toInt = (x.toNat : Int) := by
  rw [BitVec.toInt_eq_toNat_of_lt]; omega

end Diminuto.Ring
