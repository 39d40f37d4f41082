import Verif.ShaperToolLemmas3

/-!
# Lemmas: the rates of the tool that shapes traffic
-/

namespace Diminuto.ShaperTool

open Diminuto.Fd (Source Sink)
open Diminuto.Throttle (Shaper Ticks)

theorem interarrival_bounds (rate : BitVec 64) (h : rate ≠ 0) : 10 ^ 9 ≤ (Throttle.interarrivalTime rate 1 1000000000).toNat * rate.toNat ∧
    (Throttle.interarrivalTime rate 1 1000000000).toNat * rate.toNat ≤ 10 ^ 9 + rate.toNat ∧ (Throttle.interarrivalTime rate 1 1000000000).toNat ≤ 10 ^ 9 := by
  have hr : 0 < rate.toNat := Nat.pos_of_ne_zero fun h0 => h (BitVec.eq_of_toNat_eq h0)
  obtain ⟨h1, h2⟩ := Throttle.interarrival_least rate 1 1000000000 hr (by decide) (by decide)
  have e : (1000000000 : BitVec 64).toNat * (1 : BitVec 64).toNat = 10 ^ 9 := by decide
  rw [e] at h1 h2
  refine ⟨h1, ?_, h2 (10 ^ 9) (Nat.le_mul_of_pos_right _ hr)⟩
  have := h2 (10 ^ 9 / rate.toNat + 1) (by
    have := Nat.div_add_mod (10 ^ 9) rate.toNat
    have hm := Nat.mod_lt (10 ^ 9) hr
    rw [Nat.add_mul, Nat.mul_comm (10 ^ 9 / rate.toNat)]
    omega)
  have hmul := Nat.mul_le_mul_right rate.toNat this
  rw [Nat.add_mul] at hmul
  have := Nat.div_mul_le_self (10 ^ 9) rate.toNat
  omega

theorem conforms_volume {increment limit t0 block rate : Nat} {commits : List (Nat × Nat)} (hc : Throttle.Conforms increment limit t0 commits) (hi : 10 ^ 9 ≤ increment * rate)
    (hm : ∀ e ∈ commits, e.2 ≤ block) (u w : Nat) : (volume u w commits - block) * 10 ^ 9 ≤ (w + limit) * rate := by
  have hI : 0 < increment := Nat.pos_of_ne_zero fun h => by rw [h, Nat.zero_mul] at hi; omega
  have := Throttle.window_bound_aux increment limit u w block hI commits t0 0 (Nat.zero_le _) (Or.inl rfl) hm hc
  have hv : volume u w commits = Throttle.eventsIn u w commits := rfl
  have h1 : volume u w commits - block ≤ (w + limit) / increment := by
    rw [hv]
    generalize (w + limit) / increment = x at this ⊢
    omega
  have h2 := (Nat.le_div_iff_mul_le hI).mp h1
  calc (volume u w commits - block) * 10 ^ 9 ≤ (volume u w commits - block) * (increment * rate) := Nat.mul_le_mul_left _ hi
    _ = (volume u w commits - block) * increment * rate := (Nat.mul_assoc ..).symm
    _ ≤ _ := Nat.mul_le_mul_right _ h2

theorem burst_bounds (p s j burst : BitVec 64) (hp : p.toNat ≤ 10 ^ 9) (hs : s.toNat ≤ 10 ^ 9) (hj : j.toNat ≤ 10 ^ 15) (hb : burst.toNat ≤ 2 ^ 32) :
    (Throttle.burstTolerance p j s burst).toNat ≤ j.toNat + (burst.toNat - 1) * s.toNat := by
  unfold Throttle.burstTolerance
  by_cases h1 : burst ≤ 1
  · rw [if_pos h1, show (0 : BitVec 64) + j = j from BitVec.zero_add j]; exact Nat.le_add_right _ _
  · rw [if_neg h1]
    by_cases h2 : s ≤ p
    · rw [if_pos h2, show (0 : BitVec 64) + j = j from BitVec.zero_add j]; exact Nat.le_add_right _ _
    · rw [if_neg h2]
      rw [BitVec.le_def] at h1 h2
      have h1 : ¬ burst.toNat ≤ 1 := h1
      have e1 : (burst - 1).toNat = burst.toNat - 1 := BitVec.toNat_sub_of_le (by rw [BitVec.le_def]; show 1 ≤ burst.toNat; omega)
      have e2 : (s - p).toNat = s.toNat - p.toNat := BitVec.toNat_sub_of_le (by rw [BitVec.le_def]; omega)
      have e3 : (burst.toNat - 1) * (s.toNat - p.toNat) ≤ 2 ^ 32 * 10 ^ 9 := Nat.mul_le_mul (by omega) (by omega)
      have e4 : ((burst - 1) * (s - p)).toNat = (burst.toNat - 1) * (s.toNat - p.toNat) := by
        rw [BitVec.toNat_mul, e1, e2, Nat.mod_eq_of_lt (by omega)]
      have e5 : (burst.toNat - 1) * (s.toNat - p.toNat) ≤ (burst.toNat - 1) * s.toNat := Nat.mul_le_mul_left _ (by omega)
      rw [BitVec.toNat_add, e4, Nat.mod_eq_of_lt (by omega)]
      omega

theorem jitter_ticks (j : BitVec 64) (h : j.toNat ≤ 10 ^ 12) : Time.units2ticks j.toInt 1000000 = some ((j.toNat * 1000 : Nat) : Int) ∧ (BitVec.ofInt 64 ((j.toNat * 1000 : Nat) : Int)).toNat = j.toNat * 1000 := by
  rw [Fd.toInt_small j (by omega)]
  constructor
  · unfold Time.units2ticks
    rw [if_neg (by decide), if_pos (by decide), show Time.div? Time.frequency 1000000 = some 1000 by decide]
    show Time.chk _ = _
    unfold Time.chk
    rw [if_pos (by omega)]
    congr 1
  · rw [BitVec.ofInt_natCast, BitVec.toNat_ofNat]; omega

/-- The rates that are used bound what is written. -/
theorem main_rate {w : World} (hs : Steady w) {o : Options} {memory : List Byte} (hr : Reasonable o memory) {p s b : BitVec 64} (hrates : rates o = some (p, s, b)) (hp : p ≠ 0) (hs0 : s ≠ 0)
    (hb : b.toNat ≤ o.burst.toNat) (garbage : Shaper) (input : List Source) (output : List Sink) (requests turns : Nat) :
    ∃ t, (main w o (some memory) garbage input output requests turns).state = some t ∧ ∀ u v,
      (volume u v t.commits - o.block.toNat) * 10 ^ 9 ≤ (v + o.jitter.toNat * 1000) * p.toNat ∧
      (volume u v t.commits - o.block.toNat) * 10 ^ 9 ≤ (v + o.jitter.toNat * 1000) * s.toNat + (b.toNat - 1) * (10 ^ 9 + s.toNat) := by
  obtain ⟨j1, j2⟩ := jitter_ticks o.jitter hr.jitter
  obtain ⟨p1, p2, p3⟩ := interarrival_bounds p hp
  obtain ⟨s1, s2, s3⟩ := interarrival_bounds s hs0
  have hj := hr.jitter
  have hbo := hr.block.2
  have hbu := hr.burst
  obtain ⟨c, hc⟩ : ∃ c : Contract, c = { peakIncrement := Throttle.interarrivalTime p 1 1000000000, jitterTolerance := BitVec.ofInt 64 ((o.jitter.toNat * 1000 : Nat) : Int), sustainedIncrement := Throttle.interarrivalTime s 1 1000000000, burstTolerance := Throttle.burstTolerance (Throttle.interarrivalTime p 1 1000000000) (BitVec.ofInt 64 ((o.jitter.toNat * 1000 : Nat) : Int)) (Throttle.interarrivalTime s 1 1000000000) b } := ⟨_, rfl⟩
  have hcon : contract p s b o.jitter = some c := by
    unfold contract
    rw [j1, hc]
    rfl
  have hbt : c.burstTolerance.toNat ≤ o.jitter.toNat * 1000 + (b.toNat - 1) * c.sustainedIncrement.toNat := by
    rw [hc]
    have := burst_bounds (Throttle.interarrivalTime p 1 1000000000) (Throttle.interarrivalTime s 1 1000000000) (BitVec.ofInt 64 ((o.jitter.toNat * 1000 : Nat) : Int)) b p3 s3 (by rw [j2]; omega) (by omega)
    rwa [j2] at this
  have hjt : c.jitterTolerance.toNat = o.jitter.toNat * 1000 := by rw [hc]; exact j2
  have hpi : c.peakIncrement.toNat = (Throttle.interarrivalTime p 1 1000000000).toNat := by rw [hc]
  have hsi : c.sustainedIncrement.toNat = (Throttle.interarrivalTime s 1 1000000000).toNat := by rw [hc]
  rw [← hpi] at p1 p2 p3
  rw [← hsi] at s1 s2 s3
  have hfits : Fits c o.block.toNat := by
    have m1 : o.block.toNat * c.peakIncrement.toNat ≤ 2 ^ 32 * 10 ^ 9 := Nat.mul_le_mul hbo p3
    have m2 : o.block.toNat * c.sustainedIncrement.toNat ≤ 2 ^ 32 * 10 ^ 9 := Nat.mul_le_mul hbo s3
    have m3 : (b.toNat - 1) * c.sustainedIncrement.toNat ≤ 2 ^ 32 * 10 ^ 9 := Nat.mul_le_mul (by omega) s3
    unfold Fits
    omega
  have hb0 : 0 < o.block.toNat := Nat.pos_of_ne_zero fun h => hr.block.1 (BitVec.eq_of_toNat_eq h)
  obtain ⟨t, t1, t2⟩ := loop_fair hs hfits hb0 (by omega) requests turns
    { input := input, output := output, buffer := memory, shaper := Throttle.shaperInit garbage c.peakIncrement c.jitterTolerance c.sustainedIncrement c.burstTolerance (BitVec.ofNat 64 (w.clock 0)),
      readings := 1, turns := 0, count := 0, total := 0, burst := 0, fletcher := ⟨0, 0⟩, checksum := 0, out := [], commits := [] }
    ⟨by rw [hr.memory]; exact Nat.le_refl _, by simp, 0, Nat.zero_lt_one,
      ⟨(Throttle.init_rel garbage.peak c.peakIncrement c.jitterTolerance (w.clock 0)).1, (Throttle.init_rel garbage.peak c.peakIncrement c.jitterTolerance (w.clock 0)).2.1, rfl, rfl, trivial⟩,
      ⟨(Throttle.init_rel garbage.sustained c.sustainedIncrement c.burstTolerance (w.clock 0)).1, (Throttle.init_rel garbage.sustained c.sustainedIncrement c.burstTolerance (w.clock 0)).2.1, rfl, rfl, trivial⟩⟩
  refine ⟨t, ?_, fun u v => ?_⟩
  · unfold main
    simp only [if_neg hr.block.1, hrates, hcon]
    exact t1
  · obtain ⟨j, -, g1, g2⟩ := t2.good
    have v1 := conforms_volume g1.conforms p1 t2.sizes u v
    have v2 := conforms_volume g2.conforms s1 t2.sizes u v
    rw [hjt] at v1
    refine ⟨v1, Nat.le_trans v2 ?_⟩
    have m1 : (v + c.burstTolerance.toNat) * s.toNat ≤ (v + (o.jitter.toNat * 1000 + (b.toNat - 1) * c.sustainedIncrement.toNat)) * s.toNat := Nat.mul_le_mul_right _ (by omega)
    refine Nat.le_trans m1 ?_
    rw [← Nat.add_assoc, Nat.add_mul, Nat.mul_assoc]
    exact Nat.add_le_add_left (Nat.mul_le_mul_left _ s2) _

/-- Whatever the rates are, unless they are refused, the program comes to its loop. -/
theorem main_data (w : World) {o : Options} {memory : List Byte} (hr : Reasonable o memory) (hrates : rates o ≠ none) (garbage : Shaper) (input : List Source) {output : List Sink} (hw : Willing output) (requests turns : Nat) :
    ∃ s pending, (main w o (some memory) garbage input output requests turns).state = some s ∧ Stats s pending ∧ (s.out ++ pending) <+: content input ∧
      (∀ n t, main w o (some memory) garbage input output requests turns = .exit n t → pending = [] ∧ (n = 0 ∨ n = 3) ∧ (n = 0 → s.out = content input)) := by
  obtain ⟨j1, j2⟩ := jitter_ticks o.jitter hr.jitter
  obtain ⟨⟨p, s, b⟩, h1⟩ := Option.ne_none_iff_exists'.mp hrates
  obtain ⟨c, hc⟩ : ∃ c, contract p s b o.jitter = some c := by
    unfold contract
    rw [j1]
    exact ⟨_, rfl⟩
  have hb0 : 0 < o.block.toNat := Nat.pos_of_ne_zero fun h => hr.block.1 (BitVec.eq_of_toNat_eq h)
  have hbo := hr.block.2
  unfold main
  simp only [if_neg hr.block.1, h1, hc]
  refine loop_faithful hb0 (by omega) requests turns (content input) _ (by show _ ≤ memory.length; rw [hr.memory]; exact Nat.le_refl _) ⟨rfl, hw, rfl, rfl, rfl⟩

end Diminuto.ShaperTool
