import Verif.RingLemmas

/-!
# Properties C17 and C18: the ring as a bounded FIFO of slots
-/

namespace Diminuto.Ring

/-! ## Specification

The ring hands out slot numbers.  Abstractly it is two lists of slots in FIFO
order: those in use, oldest first, and those free, next to be produced first. -/

structure Spec where
  used : List Nat
  free : List Nat
  deriving DecidableEq, Repr

/-- The first slot of a list, as the `int` the functions return. -/
def firstSlot (l : List Nat) : Int :=
  match l with
  | [] => -1
  | s :: _ => s

/-- The abstract operations.  A request that does not fit returns -1 and changes
nothing; otherwise slots move between the ends of the two lists. -/
def Spec.step (s : Spec) : Op → Spec × Int
  | .producerRequest n =>
    if n.toNat ≤ s.free.length then
      (⟨s.used ++ s.free.take n.toNat, s.free.drop n.toNat⟩, firstSlot (s.free ++ s.used))
    else (s, -1)
  | .producerRevoke n =>
    if n.toNat ≤ s.used.length then
      (⟨s.used.take (s.used.length - n.toNat), s.used.drop (s.used.length - n.toNat) ++ s.free⟩,
        n.toNat)
    else (s, -1)
  | .consumerRequest n =>
    if n.toNat ≤ s.used.length then
      (⟨s.used.drop n.toNat, s.free ++ s.used.take n.toNat⟩, firstSlot (s.used ++ s.free))
    else (s, -1)
  | .consumerRevoke n =>
    if n.toNat ≤ s.free.length then
      (⟨s.free.drop (s.free.length - n.toNat) ++ s.used, s.free.take (s.free.length - n.toNat)⟩,
        n.toNat)
    else (s, -1)

def Spec.run (s : Spec) : List Op → Spec × List Int
  | [] => (s, [])
  | op :: ops =>
    let (s', x) := s.step op
    let (s'', xs) := s'.run ops
    (s'', x :: xs)

/-- The slots in use and free, read off the concrete ring. -/
def abs (r : Ring) : Spec :=
  ⟨slots r.capacity.toNat r.consumer.toNat r.measure.toNat,
   slots r.capacity.toNat r.producer.toNat (r.capacity.toNat - r.measure.toNat)⟩

theorem firstSlot_slots (cap s a t b : Nat) (hs : s < cap)
    (ht : t = (s + a) % cap) (h : a + b = cap) (hc : 0 < cap) :
    firstSlot (slots cap s a ++ slots cap t b) = s := by
  rw [ht, ← slots_add, h]
  obtain ⟨c, rfl⟩ : ∃ c, cap = c + 1 := ⟨cap - 1, by omega⟩
  simp [slots, List.range_succ_eq_map, firstSlot, Nat.mod_eq_of_lt hs]

theorem append_inj_take {α} (xs ys zs : List α) (n : Nat) (h : zs = xs ++ ys)
    (hn : xs.length = n) : zs.take n = xs ∧ zs.drop n = ys := by
  subst hn
  subst h
  simp

/-- Each call refines the abstract operation. -/
theorem step_refines (r : Ring) (op : Op) (h : Inv r) (ha : op.arg.toNat ≤ 2 ^ 31) :
    ∃ r' x, step r op = some (r', x) ∧ Inv r' ∧ r'.capacity = r.capacity ∧
      (abs r).step op = (abs r', x) := by
  obtain ⟨hpos, hsmall, hle, hcons, hprod⟩ := h
  have hplt : r.producer.toNat < r.capacity.toNat := by
    rw [hprod]; exact Nat.mod_lt _ hpos
  generalize hcap : r.capacity.toNat = cap at *
  cases op with
  | producerRequest n =>
    simp only [Op.arg] at ha
    have hsum : (r.measure + n).toNat = r.measure.toNat + n.toNat := by
      rw [BitVec.toNat_add, Nat.mod_eq_of_lt (by omega)]
    have hpn : ((r.producer + n) % r.capacity).toNat = (r.producer.toNat + n.toNat) % cap := by
      rw [BitVec.toNat_umod, BitVec.toNat_add, hcap,
        Nat.mod_eq_of_lt (a := r.producer.toNat + n.toNat) (b := 2 ^ 32) (by omega)]
    simp only [step, producerRequest, Spec.step, abs, slots_length, hcap]
    rw [mod?_pos (by omega)]
    by_cases hc : r.measure + n ≤ r.capacity
    · have hc' : r.measure.toNat + n.toNat ≤ cap := by
        rw [BitVec.le_def, hsum, hcap] at hc; exact hc
      rw [if_pos hc, if_pos (by omega)]
      refine ⟨_, _, rfl, ⟨?_, ?_, ?_, ?_, ?_⟩, rfl, ?_⟩
      · simp only [hcap]; omega
      · simp only [hcap]; omega
      · simp only [hcap, hsum]; omega
      · simp only [hcap]; omega
      · simp only [hcap, hsum, hpn]
        rw [hprod, Nat.mod_add_mod, Nat.add_assoc]
      · simp only [hcap, hsum, hpn]
        have e : cap - r.measure.toNat = n.toNat + (cap - (r.measure.toNat + n.toNat)) := by omega
        have es := slots_add cap r.producer.toNat n.toNat (cap - (r.measure.toNat + n.toNat))
        rw [← e] at es
        obtain ⟨t1, t2⟩ := append_inj_take _ _ _ n.toNat es (slots_length _ _ _)
        rw [t1, t2, slots_add, ← hprod]
        congr 1
        rw [firstSlot_slots cap _ _ _ _ hplt ?_ (by omega) hpos, toInt_small (by omega)]
        rw [hprod, Nat.mod_add_mod]
        have : r.consumer.toNat + r.measure.toNat + (cap - r.measure.toNat)
            = r.consumer.toNat + cap := by omega
        rw [this, Nat.add_mod_right, Nat.mod_eq_of_lt hcons]
    · have hc' : ¬ r.measure.toNat + n.toNat ≤ cap := by
        rw [BitVec.le_def, hsum, hcap] at hc; exact hc
      rw [if_neg hc, if_neg (by omega)]
      refine ⟨_, _, rfl, ⟨?_, ?_, ?_, ?_, ?_⟩, rfl, ?_⟩ <;> simp only [hcap] <;> assumption
  | producerRevoke n =>
    simp only [step, producerRevoke, Spec.step, abs, slots_length, hcap]
    rw [mod?_pos (by omega)]
    by_cases hc : r.measure ≥ n
    · have hc' : n.toNat ≤ r.measure.toNat := by
        rw [ge_iff_le, BitVec.le_def] at hc; exact hc
      have hdiff : (r.measure - n).toNat = r.measure.toNat - n.toNat := by
        rw [BitVec.toNat_sub_of_le hc]
      have hpn : ((r.producer + r.capacity - n) % r.capacity).toNat =
          (r.producer.toNat + cap - n.toNat) % cap := by
        have h1 : (r.producer + r.capacity).toNat = r.producer.toNat + cap := by
          rw [BitVec.toNat_add, hcap, Nat.mod_eq_of_lt (by omega)]
        rw [BitVec.toNat_umod, BitVec.toNat_sub_of_le (by rw [BitVec.le_def, h1]; omega), h1, hcap]
      have hnew : (r.producer.toNat + cap - n.toNat) % cap =
          (r.consumer.toNat + (r.measure.toNat - n.toNat)) % cap := by
        have e1 : r.producer.toNat + cap - n.toNat = r.producer.toNat + (cap - n.toNat) := by omega
        rw [e1, hprod, Nat.mod_add_mod]
        have e2 : r.consumer.toNat + r.measure.toNat + (cap - n.toNat) =
            r.consumer.toNat + (r.measure.toNat - n.toNat) + cap := by omega
        rw [e2, Nat.add_mod_right]
      rw [if_pos hc, if_pos (by omega)]
      refine ⟨_, _, rfl, ⟨?_, ?_, ?_, ?_, ?_⟩, rfl, ?_⟩
      · simp only [hcap]; omega
      · simp only [hcap]; omega
      · simp only [hcap, hdiff]; omega
      · simp only [hcap]; omega
      · simp only [hcap, hdiff, hpn]
        exact hnew
      · simp only [hcap, hdiff, hpn]
        have e : r.measure.toNat = (r.measure.toNat - n.toNat) + n.toNat := by omega
        have es := slots_add cap r.consumer.toNat (r.measure.toNat - n.toNat) n.toNat
        rw [← e] at es
        obtain ⟨t1, t2⟩ := append_inj_take _ _ _ (r.measure.toNat - n.toNat) es
          (slots_length _ _ _)
        rw [t1, t2, ← hnew]
        have e3 : cap - (r.measure.toNat - n.toNat) = n.toNat + (cap - r.measure.toNat) := by omega
        rw [e3, slots_add]
        have e4 : ((r.producer.toNat + cap - n.toNat) % cap + n.toNat) % cap = r.producer.toNat := by
          rw [Nat.mod_add_mod]
          have : r.producer.toNat + cap - n.toNat + n.toNat = r.producer.toNat + cap := by omega
          rw [this, Nat.add_mod_right, Nat.mod_eq_of_lt hplt]
        rw [e4, toInt_small (by omega)]
    · have hc' : ¬ n.toNat ≤ r.measure.toNat := by
        rw [ge_iff_le, BitVec.le_def] at hc; exact hc
      rw [if_neg hc, if_neg (by omega)]
      refine ⟨_, _, rfl, ⟨?_, ?_, ?_, ?_, ?_⟩, rfl, ?_⟩ <;> simp only [hcap] <;> assumption
  | consumerRequest n =>
    simp only [step, consumerRequest, Spec.step, abs, slots_length, hcap]
    rw [mod?_pos (by omega)]
    by_cases hc : r.measure ≥ n
    · have hc' : n.toNat ≤ r.measure.toNat := by
        rw [ge_iff_le, BitVec.le_def] at hc; exact hc
      have hdiff : (r.measure - n).toNat = r.measure.toNat - n.toNat := by
        rw [BitVec.toNat_sub_of_le hc]
      have hcn : ((r.consumer + n) % r.capacity).toNat = (r.consumer.toNat + n.toNat) % cap := by
        rw [BitVec.toNat_umod, BitVec.toNat_add, hcap,
          Nat.mod_eq_of_lt (a := r.consumer.toNat + n.toNat) (b := 2 ^ 32) (by omega)]
      rw [if_pos hc, if_pos (by omega)]
      refine ⟨_, _, rfl, ⟨?_, ?_, ?_, ?_, ?_⟩, rfl, ?_⟩
      · simp only [hcap]; omega
      · simp only [hcap]; omega
      · simp only [hcap, hdiff]; omega
      · simp only [hcap, hcn]; exact Nat.mod_lt _ hpos
      · simp only [hcap, hdiff, hcn]
        rw [Nat.mod_add_mod, hprod]
        congr 1
        omega
      · simp only [hcap, hdiff, hcn]
        have e : r.measure.toNat = n.toNat + (r.measure.toNat - n.toNat) := by omega
        have es := slots_add cap r.consumer.toNat n.toNat (r.measure.toNat - n.toNat)
        rw [← e] at es
        obtain ⟨t1, t2⟩ := append_inj_take _ _ _ n.toNat es (slots_length _ _ _)
        rw [t1, t2]
        have e3 : cap - (r.measure.toNat - n.toNat) = (cap - r.measure.toNat) + n.toNat := by omega
        rw [e3, slots_add]
        have e4 : (r.producer.toNat + (cap - r.measure.toNat)) % cap = r.consumer.toNat := by
          rw [hprod, Nat.mod_add_mod]
          have : r.consumer.toNat + r.measure.toNat + (cap - r.measure.toNat)
              = r.consumer.toNat + cap := by omega
          rw [this, Nat.add_mod_right, Nat.mod_eq_of_lt hcons]
        rw [e4, firstSlot_slots cap _ _ _ _ hcons hprod (by omega) hpos, toInt_small (by omega)]
    · have hc' : ¬ n.toNat ≤ r.measure.toNat := by
        rw [ge_iff_le, BitVec.le_def] at hc; exact hc
      rw [if_neg hc, if_neg (by omega)]
      refine ⟨_, _, rfl, ⟨?_, ?_, ?_, ?_, ?_⟩, rfl, ?_⟩ <;> simp only [hcap] <;> assumption
  | consumerRevoke n =>
    simp only [Op.arg] at ha
    have hsum : (r.measure + n).toNat = r.measure.toNat + n.toNat := by
      rw [BitVec.toNat_add, Nat.mod_eq_of_lt (by omega)]
    simp only [step, consumerRevoke, Spec.step, abs, slots_length, hcap]
    rw [mod?_pos (by omega)]
    by_cases hc : r.measure + n ≤ r.capacity
    · have hc' : r.measure.toNat + n.toNat ≤ cap := by
        rw [BitVec.le_def, hsum, hcap] at hc; exact hc
      have hcn : ((r.consumer + r.capacity - n) % r.capacity).toNat =
          (r.consumer.toNat + cap - n.toNat) % cap := by
        have h1 : (r.consumer + r.capacity).toNat = r.consumer.toNat + cap := by
          rw [BitVec.toNat_add, hcap, Nat.mod_eq_of_lt (by omega)]
        rw [BitVec.toNat_umod, BitVec.toNat_sub_of_le (by rw [BitVec.le_def, h1]; omega), h1, hcap]
      have e4 : ((r.consumer.toNat + cap - n.toNat) % cap + n.toNat) % cap = r.consumer.toNat := by
        rw [Nat.mod_add_mod]
        have : r.consumer.toNat + cap - n.toNat + n.toNat = r.consumer.toNat + cap := by omega
        rw [this, Nat.add_mod_right, Nat.mod_eq_of_lt hcons]
      rw [if_pos hc, if_pos (by omega)]
      refine ⟨_, _, rfl, ⟨?_, ?_, ?_, ?_, ?_⟩, rfl, ?_⟩
      · simp only [hcap]; omega
      · simp only [hcap]; omega
      · simp only [hcap, hsum]; omega
      · simp only [hcap, hcn]; exact Nat.mod_lt _ hpos
      · simp only [hcap, hsum, hcn]
        rw [hprod, Nat.mod_add_mod]
        have : r.consumer.toNat + cap - n.toNat + (r.measure.toNat + n.toNat) =
            r.consumer.toNat + r.measure.toNat + cap := by omega
        rw [this, Nat.add_mod_right]
      · simp only [hcap, hsum, hcn]
        have e : cap - r.measure.toNat = (cap - (r.measure.toNat + n.toNat)) + n.toNat := by omega
        have es := slots_add cap r.producer.toNat (cap - (r.measure.toNat + n.toNat)) n.toNat
        rw [← e] at es
        have e5 : (r.producer.toNat + (cap - (r.measure.toNat + n.toNat))) % cap =
            (r.consumer.toNat + cap - n.toNat) % cap := by
          rw [hprod, Nat.mod_add_mod]
          congr 1
          omega
        rw [e5] at es
        obtain ⟨t1, t2⟩ := append_inj_take _ _ _ (cap - (r.measure.toNat + n.toNat)) es
          (slots_length _ _ _)
        have e6 : cap - r.measure.toNat - n.toNat = cap - (r.measure.toNat + n.toNat) := by omega
        rw [e6, t1, t2]
        have e7 : r.measure.toNat + n.toNat = n.toNat + r.measure.toNat := by omega
        conv => rhs; rw [e7]
        rw [slots_add cap _ n.toNat r.measure.toNat, e4, toInt_small (by omega),
          Nat.add_comm n.toNat]
    · have hc' : ¬ r.measure.toNat + n.toNat ≤ cap := by
        rw [BitVec.le_def, hsum, hcap] at hc; exact hc
      rw [if_neg hc, if_neg (by omega)]
      refine ⟨_, _, rfl, ⟨?_, ?_, ?_, ?_, ?_⟩, rfl, ?_⟩ <;> simp only [hcap] <;> assumption

theorem run_refines (r : Ring) (ops : List Op) (h : Inv r)
    (ha : ∀ op ∈ ops, op.arg.toNat ≤ 2 ^ 31) :
    ∃ r' xs, run r ops = some (r', xs) ∧ Inv r' ∧ r'.capacity = r.capacity ∧
      (abs r).run ops = (abs r', xs) := by
  induction ops generalizing r with
  | nil => exact ⟨r, [], rfl, h, rfl, rfl⟩
  | cons op ops ih =>
    obtain ⟨r1, x, e1, i1, c1, s1⟩ := step_refines r op h (ha op (by simp))
    obtain ⟨r2, xs, e2, i2, c2, s2⟩ := ih r1 i1 (fun o ho => ha o (by simp [ho]))
    refine ⟨r2, x :: xs, ?_, i2, c2.trans c1, ?_⟩
    · simp [run, e1, e2]
    · simp [Spec.run, s1, s2]

/-- C17 (refinement): from initialisation with a capacity of 1 to 2^31 - 1, every
sequence of the four operations with requests up to 2^31 is free of undefined
behaviour and returns exactly what the abstract FIFO of slots returns. -/
theorem ring_refines_fifo (cap : BitVec 32) (h0 : 0 < cap.toNat) (h1 : cap.toNat < 2 ^ 31)
    (ops : List Op) (ha : ∀ op ∈ ops, op.arg.toNat ≤ 2 ^ 31) :
    ∃ r xs, run (init cap) ops = some (r, xs) ∧
      Spec.run ⟨[], List.range cap.toNat⟩ ops = (abs r, xs) := by
  obtain ⟨r, xs, e, _, _, s⟩ := run_refines (init cap) ops (init_inv cap h0 h1) ha
  refine ⟨r, xs, e, ?_⟩
  rw [← s]
  congr 1
  have e0 : (init cap).consumer.toNat = 0 := rfl
  have e1 : (init cap).measure.toNat = 0 := rfl
  have e2 : (init cap).producer.toNat = 0 := rfl
  have e3 : (init cap).capacity = cap := rfl
  simp only [abs, e0, e1, e2, e3, slots, List.range_zero, List.map_nil, Nat.sub_zero, Nat.zero_add]
  congr 1
  symm
  rw [List.map_congr_left (g := id)]
  · simp
  · intro i hi
    exact Nat.mod_eq_of_lt (List.mem_range.mp hi)

/-- C17 (conservation): in every reachable state, used and free counts add up to
the capacity, and the used and free slots together are each slot exactly once. -/
theorem ring_slots_partition (cap : BitVec 32) (h0 : 0 < cap.toNat) (h1 : cap.toNat < 2 ^ 31)
    (ops : List Op) (ha : ∀ op ∈ ops, op.arg.toNat ≤ 2 ^ 31) :
    ∃ r xs, run (init cap) ops = some (r, xs) ∧
      (used r).toNat + (free r).toNat = cap.toNat ∧
      (used r).toNat = (abs r).used.length ∧ (free r).toNat = (abs r).free.length ∧
      ((abs r).used ++ (abs r).free).Perm (List.range cap.toNat) := by
  obtain ⟨r, xs, e, i, c, s⟩ := run_refines (init cap) ops (init_inv cap h0 h1) ha
  have hcap : r.capacity.toNat = cap.toNat := by rw [c]; rfl
  have hfree : (free r).toNat = r.capacity.toNat - r.measure.toNat := by
    unfold free
    rw [BitVec.toNat_sub_of_le (by rw [BitVec.le_def]; exact i.le)]
  have := i.le
  refine ⟨r, xs, e, ?_, ?_, ?_, ?_⟩
  · rw [hfree]; unfold used; omega
  · simp [abs, slots_length, used]
  · simp [abs, slots_length, hfree]
  · simp only [abs]
    rw [i.prod, ← slots_add]
    have : r.measure.toNat + (r.capacity.toNat - r.measure.toNat) = r.capacity.toNat := by omega
    rw [this, hcap]
    exact slots_perm_range _ _ (by rw [← hcap]; exact i.cons)

/-- C17 (peek): the consumer preview is the oldest used slot, or -1 if none. -/
theorem ring_peek (r : Ring) (h : Inv r) : consumerPeek r = firstSlot (abs r).used := by
  have hs := h.small
  have hc := h.cons
  unfold consumerPeek
  by_cases hm : r.measure ≥ 1
  · rw [if_pos hm]
    have : 1 ≤ r.measure.toNat := by simpa [BitVec.le_def] using hm
    obtain ⟨m, hm⟩ : ∃ m, r.measure.toNat = m + 1 := ⟨r.measure.toNat - 1, by omega⟩
    simp only [abs, hm, slots, List.range_succ_eq_map, List.map_cons, firstSlot, Nat.add_zero]
    rw [Nat.mod_eq_of_lt hc, toInt_small (by omega)]
  · rw [if_neg hm]
    have : r.measure.toNat = 0 := by
      have : ¬ 1 ≤ r.measure.toNat := by simpa [BitVec.le_def] using hm
      omega
    simp [abs, this, slots, firstSlot]

/-- C17 (granted range): stepping with the "next index" function from the first
slot of a granted run of slots visits exactly that run. -/
theorem ring_next_walks_grant (r : Ring) (h : Inv r) (start n k : Nat) (hk : k + 1 < n)
    (idx : BitVec 32) (hidx : (slots r.capacity.toNat start n)[k]? = some idx.toNat) :
    ∃ idx', next r idx = some idx' ∧
      (slots r.capacity.toNat start n)[k + 1]? = some idx'.toNat := by
  have hpos := h.pos
  have hsmall := h.small
  refine ⟨_, mod?_pos hpos, ?_⟩
  have e : idx.toNat = (start + k) % r.capacity.toNat := by
    simp [slots, (by omega : k < n)] at hidx
    exact hidx.symm
  have hlt : idx.toNat < r.capacity.toNat := by rw [e]; exact Nat.mod_lt _ hpos
  rw [BitVec.toNat_umod, BitVec.toNat_add]
  have e1 : (1 : BitVec 32).toNat = 1 := rfl
  rw [e1, Nat.mod_eq_of_lt (a := idx.toNat + 1) (b := 2 ^ 32) (by omega), e, Nat.mod_add_mod]
  simp [slots, hk, Nat.add_assoc]

-- Non-vacuity: a history with wrap-around and both revocations.
example : run (init 4) [.producerRequest 3, .consumerRequest 2, .producerRequest 3,
      .producerRequest 1, .producerRevoke 1, .consumerRevoke 1, .consumerRequest 4] =
    some (⟨4, 0, 1, 1⟩, [0, 0, 3, -1, 1, 1, 1]) := by decide
example : (0 : Nat) < (4 : BitVec 32).toNat ∧ (4 : BitVec 32).toNat < 2 ^ 31 := by decide

/-! ## C18: oversized requests are refused -/

/-- Full statement of C18 for the producer. -/
def ProducerRefusesOversized : Prop :=
  ∀ (r : Ring) (n : BitVec 32), Inv r → r.capacity.toNat - r.measure.toNat < n.toNat →
    producerRequest r n = some (r, -1)

/-- C18 is false of the code: `measure + request` wraps in 32 bits, so a ring of
ten slots with five in use grants a request for 2^32 - 1 more. -/
theorem ring_producer_oversized_counterexample : ¬ ProducerRefusesOversized := by
  intro h
  have := h ⟨10, 5, 5, 0⟩ 0xffffffff ⟨by decide, by decide, by decide, by decide, by decide⟩
    (by decide)
  revert this
  decide

/-- After the accepted oversized request the ring reports four used slots. -/
example : producerRequest ⟨10, 5, 5, 0⟩ 0xffffffff = some (⟨10, 4, 4, 0⟩, 5) := by decide

/-- C18, proved part: refused whenever the 32-bit sum does not wrap, in particular
for every request up to 2^31; missing: requests above 2^32 - 1 - measure. -/
theorem ring_producer_refuses_partial (r : Ring) (n : BitVec 32) (_ : Inv r)
    (hn : r.capacity.toNat - r.measure.toNat < n.toNat)
    (hw : r.measure.toNat + n.toNat < 2 ^ 32) :
    producerRequest r n = some (r, -1) ∧ consumerRevoke r n = some (r, -1) := by
  have hsum : (r.measure + n).toNat = r.measure.toNat + n.toNat := by
    rw [BitVec.toNat_add, Nat.mod_eq_of_lt (by omega)]
  have hc : ¬ r.measure + n ≤ r.capacity := by
    rw [BitVec.le_def, hsum]; omega
  exact ⟨by rw [producerRequest, if_neg hc], by rw [consumerRevoke, if_neg hc]⟩

/-- C18 (consumer side): a consumer request or producer revocation larger than
the used space is refused for every 32-bit value. -/
theorem ring_consumer_refuses (r : Ring) (n : BitVec 32) (hn : r.measure.toNat < n.toNat) :
    consumerRequest r n = some (r, -1) ∧ producerRevoke r n = some (r, -1) := by
  have hc : ¬ r.measure ≥ n := by
    rw [ge_iff_le, BitVec.le_def]; omega
  exact ⟨by rw [consumerRequest, if_neg hc], by rw [producerRevoke, if_neg hc]⟩

/-- A zero capacity makes even an empty request undefined (remainder by zero). -/
theorem ring_zero_capacity_undefined : producerRequest (init 0) 0 = none := by decide

example : producerRequest ⟨10, 5, 5, 0⟩ 6 = some (⟨10, 5, 5, 0⟩, -1) := by decide

end Diminuto.Ring
