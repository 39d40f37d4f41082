import Verif.ShaperToolSpec
import Verif.ThrottleProps
import Verif.FdLemmas
import Verif.FletcherProps

/-!
# Lemmas for the tool that shapes traffic
-/

namespace Diminuto.ShaperTool

open Diminuto.Fd (Source Sink)
open Diminuto.Throttle (Shaper Ticks Conforms specTat Rel AlarmInv)

/-- A read with a minimum of one byte is one system call. -/
theorem read_one (e : Source) (k : List Source) (mem : List Byte) (block : BitVec 64) (hb : 0 < block.toNat) (hm : block.toNat ≤ mem.length) :
    ∃ g, Fd.readGeneric (e :: k) mem 1 block = .done g ∧
      ((g.ret = 0 ∧ g.mem = mem ∧ content (e :: k) = []) ∨
       (g.ret = -1 ∧ g.mem = mem ∧ content (e :: k) = content g.kernel) ∨
       (∃ bs, bs ≠ [] ∧ bs.length ≤ block.toNat ∧ g.ret = bs.length ∧ g.mem.take bs.length = bs ∧ g.mem.length = mem.length ∧ content (e :: k) = bs ++ content g.kernel)) := by
  unfold Fd.readGeneric Fd.readLoop
  rw [if_pos hb]
  simp only []
  cases e with
  | eof =>
    exact ⟨_, rfl, Or.inl ⟨rfl, rfl, rfl⟩⟩
  | error => exact ⟨_, rfl, Or.inr (Or.inl ⟨rfl, rfl, rfl⟩)⟩
  | data bs =>
    simp only [Fd.sysRead]
    cases bs with
    | nil => exact ⟨_, rfl, Or.inl ⟨rfl, rfl, rfl⟩⟩
    | cons b bs =>
      rw [if_neg (by simp)]
      have h1 : (1#64).toInt = 1 := by decide
      by_cases hl : (b :: bs).length ≤ block.toNat
      · rw [if_pos hl]
        simp only []
        rw [show Fd.store mem 0 (b :: bs) = some (mem.take 0 ++ (b :: bs) ++ mem.drop (0 + (b :: bs).length)) from if_pos (by omega)]
        simp only []
        rw [if_pos (Or.inl (by rw [List.length_cons]; show (0 : Int) + _ ≥ (1#64).toInt; rw [h1]; omega))]
        refine ⟨_, rfl, Or.inr (Or.inr ⟨b :: bs, by simp, hl, by simp, ?_, ?_, rfl⟩)⟩
        · simp
        · simp only [List.length_append, List.length_drop, List.take_zero, List.length_nil]
          omega
      · rw [if_neg hl]
        have hlt : ((b :: bs).take block.toNat).length = block.toNat := by rw [List.length_take]; omega
        simp only []
        rw [show Fd.store mem 0 ((b :: bs).take block.toNat) = some (mem.take 0 ++ (b :: bs).take block.toNat ++ mem.drop (0 + ((b :: bs).take block.toNat).length)) from if_pos (by omega)]
        simp only []
        rw [if_pos (Or.inl (by rw [hlt]; show (0 : Int) + _ ≥ (1#64).toInt; rw [h1]; omega))]
        refine ⟨_, rfl, Or.inr (Or.inr ⟨(b :: bs).take block.toNat, ?_, by omega, by simp, ?_, ?_, ?_⟩)⟩
        · intro h; rw [h] at hlt; simp at hlt; omega
        · simp
        · simp only [List.length_append, List.length_drop, List.take_zero, List.length_nil, hlt]
          omega
        · have hd : (b :: bs).drop block.toNat ≠ [] := by
            intro h
            have := congrArg List.length h
            rw [List.length_drop, List.length_nil] at this
            omega
          obtain ⟨c, cs, hc⟩ : ∃ c cs, (b :: bs).drop block.toNat = c :: cs := by
            cases h : (b :: bs).drop block.toNat with
            | nil => exact absurd h hd
            | cons c cs => exact ⟨c, cs, rfl⟩
          show (b :: bs) ++ content k = (b :: bs).take block.toNat ++ content ([Source.data ((b :: bs).drop block.toNat)] ++ k)
          rw [hc]
          show (b :: bs) ++ content k = (b :: bs).take block.toNat ++ (c :: cs ++ content k)
          rw [← hc, ← List.append_assoc, List.take_append_drop]

theorem read_none (mem : List Byte) (block : BitVec 64) (hb : 0 < block.toNat) : Fd.readGeneric [] mem 1 block = .blocks := by
  unfold Fd.readGeneric Fd.readLoop
  rw [if_pos hb]

/-- A write to a willing reader writes everything, or waits. -/
theorem write_willing (mem : List Byte) (min : Nat) (k : List Sink) : ∀ (bp slack total : Nat), Willing k → bp + slack ≤ mem.length → 0 < slack → total + slack = min →
    Fd.writeLoop (min : Int) mem k bp slack (total : Int) = .blocks ∨
    ∃ p, Fd.writeLoop (min : Int) mem k bp slack (total : Int) = .done p ∧ p.ret = min ∧ p.out = (mem.drop bp).take slack ∧ Willing p.kernel := by
  induction k with
  | nil =>
    intro bp slack total _ _ hs _
    left
    unfold Fd.writeLoop
    rw [if_pos hs]
  | cons e k ih =>
    intro bp slack total hw hl hs ht
    obtain ⟨n, rfl⟩ := hw e (List.mem_cons_self ..)
    have hwk : Willing k := fun e he => hw e (List.mem_cons_of_mem _ he)
    unfold Fd.writeLoop
    rw [if_pos hs]
    have hsw : Fd.sysWrite slack (.room (n + 1)) = .took (Nat.min (n + 1) slack) := rfl
    rw [hsw]
    obtain ⟨m, hm⟩ : ∃ m, Nat.min (n + 1) slack = m := ⟨_, rfl⟩
    have hm1 : 0 < m ∧ m ≤ slack := by
      rw [← hm]
      exact ⟨Nat.lt_min.mpr ⟨by omega, hs⟩, Nat.min_le_right _ _⟩
    rw [hm]
    simp only []
    rw [if_pos hl]
    by_cases hd : (total : Int) + m ≥ min
    · rw [if_pos hd]
      right
      have : m = slack := by omega
      subst this
      exact ⟨_, rfl, by show (total : Int) + m = min; omega, rfl, hwk⟩
    · rw [if_neg hd]
      rcases ih (bp + m) (slack - m) (total + m) hwk (by omega) (by omega) (by omega) with h | ⟨p, h, p1, p2, p3⟩
      · left
        rw [show (total : Int) + m = ((total + m : Nat) : Int) by omega, h]
        rfl
      · right
        rw [show (total : Int) + m = ((total + m : Nat) : Int) by omega, h]
        refine ⟨_, rfl, p1, ?_, p3⟩
        show (mem.drop bp).take m ++ p.out = _
        rw [p2, ← List.drop_drop]
        have : (mem.drop bp).take slack = (mem.drop bp).take (m + (slack - m)) := by rw [Nat.add_sub_cancel' hm1.2]
        rw [this, List.take_add]

/-- Any number of requests leaves the shaper as the last one alone does. -/
theorem shaper_request_idempotent (s : Shaper) (a b : Ticks) : Throttle.shaperRequest (Throttle.shaperRequest s a).2 b = Throttle.shaperRequest s b := by
  have h1 := Throttle.throttle_request_idempotent s.peak a b
  have h2 := Throttle.throttle_request_idempotent s.sustained a b
  have e : ∀ (s : Shaper) (x : Ticks), Throttle.shaperRequest s x =
      (if (Throttle.request s.peak x).1 > (Throttle.request s.sustained x).1 then (Throttle.request s.peak x).1 else (Throttle.request s.sustained x).1,
        ⟨(Throttle.request s.peak x).2, (Throttle.request s.sustained x).2⟩) := fun _ _ => rfl
  rw [e _ b, e s b]
  have p1 : (Throttle.shaperRequest s a).2.peak = (Throttle.request s.peak a).2 := rfl
  have p2 : (Throttle.shaperRequest s a).2.sustained = (Throttle.request s.sustained a).2 := rfl
  rw [p1, p2, h1, h2]

/-- The loop that waits ends with a request that has been answered with zero. -/
theorem shape_spec (clock : Nat → Nat) (n : Nat) : ∀ (r : Nat) (s : Shaper) (r' : Nat) (s' : Shaper), shape clock n r s = some (r', s') →
    r ≤ r' ∧ Throttle.shaperRequest s (BitVec.ofNat 64 (clock r')) = (0, s') := by
  induction n with
  | zero => intro r s r' s' h; cases h
  | succ n ih =>
    intro r s r' s' h
    unfold shape at h
    simp only [] at h
    split at h
    · rename_i h0
      cases h
      exact ⟨Nat.le_refl _, by rw [← h0]⟩
    · obtain ⟨i1, i2⟩ := ih _ _ _ _ h
      rw [shaper_request_idempotent] at i2
      exact ⟨by omega, i2⟩

theorem conforms_append (increment limit : Nat) (l : List (Nat × Nat)) (t n : Nat) : ∀ tat, Conforms increment limit tat (l ++ [(t, n)]) ↔
    Conforms increment limit tat l ∧ specTat increment tat l ≤ t + limit := by
  induction l with
  | nil => intro tat; simp [Conforms, specTat]
  | cons e l ih =>
    intro tat
    obtain ⟨a, b⟩ := e
    simp only [List.cons_append, Conforms, ih, specTat, List.foldl_cons, and_assoc]

theorem specTat_append (increment : Nat) (l : List (Nat × Nat)) (t n tat : Nat) : specTat increment tat (l ++ [(t, n)]) = max (specTat increment tat l) t + n * increment := by
  simp [specTat, List.foldl_append]

end Diminuto.ShaperTool
