import Verif.ShaperToolLemmas4
import Verif.ThrottleProps

/-!
# Properties of the tool that shapes traffic
-/

namespace Diminuto.ShaperTool

open Diminuto.Fd (Source Sink)
open Diminuto.Throttle (Shaper Ticks)

/-- C129.  With a sustained rate, unless the options are refused, what is written in any interval is at most the rate times the length of the interval, the maximum burst, the jitter, and one block; at any point of any run, whatever
the input and the reader do. -/
theorem shaper_sustained {w : World} (hs : Steady w) {o : Options} {memory : List Byte} (hr : Reasonable o memory) (h0 : o.sustained ≠ 0) (hacc : o.peak = 0 ∨ o.burst = 0 ∨ o.sustained ≤ o.peak) (garbage : Shaper)
    (input : List Source) (output : List Sink) (requests turns : Nat) :
    ∃ t, (main w o (some memory) garbage input output requests turns).state = some t ∧ ∀ u v,
      (volume u v t.commits - o.block.toNat) * 10 ^ 9 ≤ (v + o.jitter.toNat * 1000) * o.sustained.toNat + (o.burst.toNat - 1) * (10 ^ 9 + o.sustained.toNat) := by
  have key : ∃ p b, rates o = some (p, o.sustained, b) ∧ p ≠ 0 ∧ b.toNat ≤ o.burst.toNat := by
    unfold rates
    rw [if_neg h0]
    by_cases h1 : o.peak = 0
    · rw [if_pos h1]; exact ⟨_, _, rfl, h0, Nat.zero_le _⟩
    · rw [if_neg h1]
      by_cases h2 : o.burst = 0
      · rw [if_pos h2]; exact ⟨_, _, rfl, h0, Nat.zero_le _⟩
      · have h3 : o.sustained ≤ o.peak := by rcases hacc with h | h | h; exact absurd h h1; exact absurd h h2; exact h
        rw [if_neg h2, if_neg (by rw [gt_iff_lt, BitVec.lt_def]; rw [BitVec.le_def] at h3; omega)]
        exact ⟨_, _, rfl, h1, Nat.le_refl _⟩
  obtain ⟨p, b, k1, k2, k3⟩ := key
  obtain ⟨t, t1, t2⟩ := main_rate hs hr k1 k2 h0 k3 garbage input output requests turns
  refine ⟨t, t1, fun u v => Nat.le_trans (t2 u v).2 (Nat.add_le_add_left (Nat.mul_le_mul_right _ (by omega)) _)⟩

/-- C129.  The property asks for the same of the peak rate, without the burst.  It is so unless there is a higher sustained rate and no maximum burst size. -/
theorem shaper_peak_partial {w : World} (hs : Steady w) {o : Options} {memory : List Byte} (hr : Reasonable o memory) (h0 : o.peak ≠ 0) (hacc : o.sustained = 0 ∨ o.sustained ≤ o.peak) (garbage : Shaper)
    (input : List Source) (output : List Sink) (requests turns : Nat) :
    ∃ t, (main w o (some memory) garbage input output requests turns).state = some t ∧ ∀ u v,
      (volume u v t.commits - o.block.toNat) * 10 ^ 9 ≤ (v + o.jitter.toNat * 1000) * o.peak.toNat := by
  have key : ∃ p s b, rates o = some (p, s, b) ∧ p ≠ 0 ∧ s ≠ 0 ∧ b.toNat ≤ o.burst.toNat ∧ p.toNat ≤ o.peak.toNat := by
    unfold rates
    by_cases h1 : o.sustained = 0
    · rw [if_pos h1]; exact ⟨_, _, _, rfl, h0, h0, Nat.zero_le _, Nat.le_refl _⟩
    · have h3 : o.sustained ≤ o.peak := by rcases hacc with h | h; exact absurd h h1; exact h
      rw [BitVec.le_def] at h3
      rw [if_neg h1, if_neg h0]
      by_cases h2 : o.burst = 0
      · rw [if_pos h2]; exact ⟨_, _, _, rfl, h1, h1, Nat.zero_le _, h3⟩
      · rw [if_neg h2, if_neg (by rw [gt_iff_lt, BitVec.lt_def]; omega)]
        exact ⟨_, _, _, rfl, h0, h1, Nat.le_refl _, Nat.le_refl _⟩
  obtain ⟨p, s, b, k1, k2, k3, k4, k5⟩ := key
  obtain ⟨t, t1, t2⟩ := main_rate hs hr k1 k2 k3 k4 garbage input output requests turns
  exact ⟨t, t1, fun u v => Nat.le_trans (t2 u v).1 (Nat.mul_le_mul_left _ k5)⟩

/-- A shaper whose fields hold rubbish. -/
def rubbish : Shaper := ⟨Throttle.rubbish, Throttle.rubbish⟩

/-- A clock that goes on by a hundredth of a second with each reading. -/
def world : World := ⟨fun i => 10000000 * min i 1000, fun _ => false⟩

example : Steady world := by
  refine ⟨fun i j h => ?_, fun i => ?_⟩ <;> simp only [world] <;> omega

/-- Three bytes at a peak rate of 100 bytes in a second and a sustained rate of 10: with a maximum burst of two the second is written soon after the first. -/
example : Reasonable ⟨1, 100, 10, 2, 0⟩ [0x55#8] ∧
    ∃ t, main world ⟨1, 100, 10, 2, 0⟩ (some [0x55#8]) rubbish [.data [1#8, 2#8, 3#8], .eof] [.room 1, .room 1, .room 1] 100 10 = .exit 0 t ∧ t.out = [1#8, 2#8, 3#8] ∧
      t.commits = [(20000000, 1), (40000000, 1), (130000000, 1)] := by
  refine ⟨⟨⟨by decide, by decide⟩, by decide, by decide, by decide⟩, ?_⟩
  refine ⟨(main world ⟨1, 100, 10, 2, 0⟩ (some [0x55#8]) rubbish [.data [1#8, 2#8, 3#8], .eof] [.room 1, .room 1, .room 1] 100 10).state.getD ⟨[], [], [], rubbish, 0, 0, 0, 0, 0, ⟨0, 0⟩, 0, [], []⟩, by decide +kernel⟩

/-- C129.  With a sustained rate of 100 bytes in a second and a peak rate of 10, but no maximum burst size, the peak rate is forgotten: eleven bytes go out in little more than a tenth of a second. -/
theorem shaper_peak_counterexample : ¬ ∀ (w : World), Steady w → ∀ (o : Options) (memory : List Byte), Reasonable o memory → o.peak ≠ 0 → ∀ (garbage : Shaper) (input : List Source) (output : List Sink) (requests turns : Nat),
    ∃ t, (main w o (some memory) garbage input output requests turns).state = some t ∧ ∀ u v,
      (volume u v t.commits - o.block.toNat) * 10 ^ 9 ≤ (v + o.jitter.toNat * 1000) * o.peak.toNat := by
  intro h
  obtain ⟨t, t1, t2⟩ := h ⟨fun i => 10000000 * min i 1000, fun _ => false⟩ ⟨fun i j h => by simp only []; omega, fun i => by simp only []; omega⟩ ⟨1, 10, 100, 0, 0⟩ [0] ⟨⟨by decide, by decide⟩, by decide, by decide, by decide⟩
    (by decide) rubbish [.data [1#8, 2#8, 3#8, 4#8, 5#8, 6#8]] (List.replicate 6 (.room 1)) 10 10
  have key : (main ⟨fun i => 10000000 * min i 1000, fun _ => false⟩ ⟨1, 10, 100, 0, 0⟩ (some [0]) rubbish [.data [1#8, 2#8, 3#8, 4#8, 5#8, 6#8]] (List.replicate 6 (.room 1)) 10 10).state.map (fun t => volume 0 200000000 t.commits) =
      some 6 := by decide +kernel
  rw [t1] at key
  have key : volume 0 200000000 t.commits = 6 := by simpa using key
  have := t2 0 200000000
  rw [key] at this
  revert this
  decide

/-- C129.  Without a rate the data is shaped nevertheless, to one byte in a second: after twenty readings of a clock that goes on by forty milliseconds each the second block has not been written, and the request for it asks for what is
left of the seconds of the bytes of the first. -/
theorem shaper_unshaped_counterexample : ¬ ∀ (w : World), Steady w → ∀ (o : Options) (memory : List Byte), Reasonable o memory → o.peak = 0 → o.sustained = 0 → ∀ (garbage : Shaper) (input : List Source) (output : List Sink)
    (turns : Nat), Willing output → ∀ t, main w o (some memory) garbage input output 20 turns ≠ .running t := by
  intro h
  refine h ⟨fun i => 40000000 * min i 1000, fun _ => false⟩ ⟨fun i j h => by simp only []; omega, fun i => by simp only []; omega⟩ ⟨1, 0, 0, 0, 0⟩ [0] ⟨⟨by decide, by decide⟩, by decide, by decide, by decide⟩ rfl rfl rubbish
    [.data [1#8, 2#8], .eof] [.room 1, .room 1] 10 ?_ ((main ⟨fun i => 40000000 * min i 1000, fun _ => false⟩ ⟨1, 0, 0, 0, 0⟩ (some [0]) rubbish [.data [1#8, 2#8], .eof] [.room 1, .room 1] 20 10).state.getD
      ⟨[], [], [], rubbish, 0, 0, 0, 0, 0, ⟨0, 0⟩, 0, [], []⟩) (by decide +kernel)
  intro e he
  simp at he
  exact ⟨0, he⟩

/-- C129.  Indeed a run without a rate is the run with a peak rate of one byte in a second. -/
theorem shaper_unshaped_rate (w : World) (o : Options) (h : o.sustained = 0) (memory : Option (List Byte)) (garbage : Shaper) (input : List Source) (output : List Sink) (requests turns : Nat) :
    main w { o with peak := 0 } memory garbage input output requests turns = main w { o with peak := 1 } memory garbage input output requests turns := by
  have e : Throttle.interarrivalTime 0 1 1000000000 = Throttle.interarrivalTime 1 1 1000000000 := by decide
  have e' : ∀ j, contract 0 0 0 j = contract 1 1 0 j := fun j => by unfold contract; rw [e]
  unfold main rates
  simp only [h, if_true, e']

/-- C129.  Waiting for the interval that is asked for is enough: for a throttle that has admitted what was asked for, at any time that much later or more nothing more is asked for. -/
theorem shaper_waits {ip lp is ls : Ticks} {t0 last t t' : Nat} {s : Shaper} {commits : List (Nat × Nat)} (hp : Good ip lp t0 s.peak commits last) (hs : Good is ls t0 s.sustained commits last) (hl : last ≤ t)
    (ht : t + (Throttle.shaperRequest s (BitVec.ofNat 64 t)).1.toNat ≤ t') (hg : t' - last < 2 ^ 64) :
    (Throttle.shaperRequest (Throttle.shaperRequest s (BitVec.ofNat 64 t)).2 (BitVec.ofNat 64 t')).1 = 0 := by
  rw [shaper_request_idempotent]
  have a1 := (Throttle.request_rel s.peak _ last t hp.rel hl (by omega)).1
  have a2 := (Throttle.request_rel s.sustained _ last t hs.rel hl (by omega)).1
  have b1 := (Throttle.request_rel s.peak _ last t' hp.rel (by omega) hg).1
  have b2 := (Throttle.request_rel s.sustained _ last t' hs.rel (by omega) hg).1
  have c1 : (Throttle.shaperRequest s (BitVec.ofNat 64 t)).1.toNat = _ := Throttle.toNat_longer (Throttle.request s.peak (BitVec.ofNat 64 t)).1 (Throttle.request s.sustained (BitVec.ofNat 64 t)).1
  have c2 : (Throttle.shaperRequest s (BitVec.ofNat 64 t')).1.toNat = _ := Throttle.toNat_longer (Throttle.request s.peak (BitVec.ofNat 64 t')).1 (Throttle.request s.sustained (BitVec.ofNat 64 t')).1
  rw [a1, a2] at c1
  rw [b1, b2] at c2
  rw [c1] at ht
  exact BitVec.eq_of_toNat_eq (by rw [c2]; show _ = 0; omega)

/-- C130.  With a reader that takes what it is given, whatever the rates and the clock, the output is at every point the beginning of the input, an exit with a status of zero is after all of it and any other has a status of
three; the total and the checksum are those of what has been read, which, but for the block that waits to be written, is what has been written. -/
theorem shaper_data_partial (w : World) {o : Options} {memory : List Byte} (hr : Reasonable o memory) (hacc : o.sustained = 0 ∨ o.peak = 0 ∨ o.burst = 0 ∨ o.sustained ≤ o.peak) (garbage : Shaper) (input : List Source)
    {output : List Sink} (hw : Willing output) (requests turns : Nat) :
    ∃ s pending, (main w o (some memory) garbage input output requests turns).state = some s ∧ (s.out ++ pending) <+: content input ∧ s.total = BitVec.ofNat 64 (s.out ++ pending).length ∧
      (s.out ++ pending ≠ [] → s.checksum = (Fletcher.fletcher16 (s.out ++ pending) ⟨0, 0⟩).1) ∧
      (∀ n t, main w o (some memory) garbage input output requests turns = .exit n t → pending = [] ∧ (n = 0 ∨ n = 3) ∧ (n = 0 → s.out = content input)) := by
  have hrates : rates o ≠ none := by
    unfold rates
    by_cases h1 : o.sustained = 0
    · rw [if_pos h1]; exact nofun
    · rw [if_neg h1]
      by_cases h2 : o.peak = 0
      · rw [if_pos h2]; exact nofun
      · rw [if_neg h2]
        by_cases h3 : o.burst = 0
        · rw [if_pos h3]; exact nofun
        · rw [if_neg h3, if_neg (by
            rcases hacc with h | h | h | h
            · exact absurd h h1
            · exact absurd h h2
            · exact absurd h h3
            · rw [gt_iff_lt, BitVec.lt_def]; rw [BitVec.le_def] at h; omega)]
          exact nofun
  obtain ⟨s, pending, h1, h2, h3, h4⟩ := main_data w hr hrates garbage input hw requests turns
  exact ⟨s, pending, h1, h3, h2.total, fun h => by rw [h2.checksum, if_neg h], h4⟩

/-- C130.  With any reader this is false: if a write fails after part of a block has been written then the rest of the block is lost, and the tool goes on with the next one and ends with a status of zero. -/
theorem shaper_data_counterexample : ¬ ∀ (w : World) (o : Options) (memory : List Byte), Reasonable o memory → ∀ (garbage : Shaper) (input : List Source) (output : List Sink) (requests turns : Nat) (s : State),
    main w o (some memory) garbage input output requests turns = .exit 0 s → s.out = content input := by
  intro h
  have h := h ⟨fun i => 10000000 * min i 1000, fun _ => false⟩ ⟨4, 1000000000, 0, 0, 0⟩ [0, 0, 0, 0] ⟨⟨by decide, by decide⟩, by decide, by decide, by decide⟩ rubbish [.data [1, 2, 3, 4, 5, 6], .eof]
    [.room 1, .error, .room 4] 10 10 ((main ⟨fun i => 10000000 * min i 1000, fun _ => false⟩ ⟨4, 1000000000, 0, 0, 0⟩ (some [0, 0, 0, 0]) rubbish [.data [1, 2, 3, 4, 5, 6], .eof]
    [.room 1, .error, .room 4] 10 10).state.getD ⟨[], [], [], rubbish, 0, 0, 0, 0, 0, ⟨0, 0⟩, 0, [], []⟩) (by decide +kernel)
  revert h
  decide +kernel

example : Willing [Sink.room 1, .room 1, .room 1] ∧ content [.data [1#8, 2#8, 3#8], .eof] = [1#8, 2#8, 3#8] := by
  refine ⟨fun e he => ?_, rfl⟩
  simp at he
  exact ⟨0, he⟩

/-- After a commitment of two bytes, at ten ticks a byte, eighteen ticks are asked for after two, and after twenty none. -/
example : Good 10 0 0 (Throttle.admitn (Throttle.init Throttle.rubbish 10 0 0) 0 2).2 [(0, 2)] 0 ∧
    (Throttle.shaperRequest ⟨(Throttle.admitn (Throttle.init Throttle.rubbish 10 0 0) 0 2).2, (Throttle.admitn (Throttle.init Throttle.rubbish 10 0 0) 0 2).2⟩ 2).1 = 18 := by
  have h := Throttle.init_rel Throttle.rubbish 10 0 0
  exact ⟨good_admit (increment := 10) (limit := 0) (t0 := 0) (commits := []) (last := 0) (t := 0) (n := 2) ⟨h.1, h.2.1, rfl, rfl, trivial⟩ (by decide) (by decide) (by decide) (by decide) (by decide), by decide⟩

end Diminuto.ShaperTool
