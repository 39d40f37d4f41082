import Verif.ShaperbufferedLemmas2

/-!
# Properties of the tool that shapes traffic with the functions of the C library
-/

namespace Diminuto.Shaperbuffered

open Diminuto.Throttle (Shaper Ticks)
open Diminuto.ShaperTool (Options volume)

/-- C153.  Whatever the rates and the clock, unless the options are refused: at any point what has been accepted for the output, with what waits or has been lost of one block, is the beginning of the input, and the statistics are those of it; the tool
exits with a status of zero only when all of the input has been accepted, with a status of three only if a reading has failed, and with a status of four only if a writing has.  What is missing to the property are lines with zero bytes in them, or a buffer
for lines of one byte or of two gigabytes or more, and the end, when what has been accepted must arrive. -/
theorem shaperbuffered_data_partial (w : World) (m : Mode) {o : Options} (hr : Reasonable o) (hacc : o.sustained = 0 ∨ o.peak = 0 ∨ o.burst = 0 ∨ o.sustained ≤ o.peak) (garbage : Shaper) {stdin : List (Option Byte)}
    (hm : Suits m o.block stdin) (requests turns : Nat) :
    ∃ s rest sizes, (main w m o true garbage stdin requests turns).state = some s ∧ (s.out ++ rest) <+: bytes stdin ∧
      s.total = BitVec.ofNat 64 (s.out ++ rest).length ∧ (s.out ++ rest ≠ [] → s.checksum = (Fletcher.fletcher16 (s.out ++ rest) ⟨0, 0⟩).1) ∧
      sizes.sum = (s.out ++ rest).length ∧ s.count = BitVec.ofNat 64 sizes.length ∧ s.burst.toNat = sizes.foldl max 0 ∧
      ∀ n t, main w m o true garbage stdin requests turns = .exit n t →
        (n = 0 ∨ n = 3 ∨ n = 4) ∧ sizes = s.commits.map Prod.snd ∧ (n = 0 → rest = [] ∧ s.out = bytes stdin) ∧ (n = 3 → rest = [] ∧ none ∈ stdin) ∧ (n = 4 → ∃ i k, w.fails i = some k) := by
  have hrates : ShaperTool.rates o ≠ none := by
    unfold ShaperTool.rates
    by_cases h1 : o.sustained = 0
    · rw [if_pos h1]; exact nofun
    · rw [if_neg h1]
      by_cases h2 : o.peak = 0
      · rw [if_pos h2]; exact nofun
      · rw [if_neg h2]
        by_cases h3 : o.burst = 0
        · rw [if_pos h3]; exact nofun
        · rw [if_neg h3, if_neg (by
            rcases hacc with h | h | h | h
            · exact absurd h h1
            · exact absurd h h2
            · exact absurd h h3
            · rw [gt_iff_lt, BitVec.lt_def]; rw [BitVec.le_def] at h; omega)]
          exact nofun
  obtain ⟨j1, j2⟩ := ShaperTool.jitter_ticks o.jitter hr.jitter
  obtain ⟨⟨p, s, b⟩, h1⟩ := Option.ne_none_iff_exists'.mp hrates
  obtain ⟨c, hc⟩ : ∃ c, ShaperTool.contract p s b o.jitter = some c := by
    unfold ShaperTool.contract
    rw [j1]
    exact ⟨_, rfl⟩
  obtain ⟨shaped, s0, e0, e1⟩ : ∃ shaped s0, main w m o true garbage stdin requests turns = loop w m o.block shaped requests turns s0 ∧
      s0.input = ⟨stdin, false, false⟩ ∧ s0.out = [] ∧ s0.commits = [] ∧ Stats s0 [] [] := by
    unfold main
    simp only [if_neg hr.block.1, h1]
    rw [if_neg (by simp)]
    split
    · rw [hc]
      exact ⟨_, _, rfl, rfl, rfl, rfl, rfl, rfl, rfl, rfl, rfl, rfl⟩
    · exact ⟨_, _, rfl, rfl, rfl, rfl, rfl, rfl, rfl, rfl, rfl, rfl⟩
  obtain ⟨i1, i2, i3, i4⟩ := e1
  rw [e0]
  obtain ⟨s', rest, sizes, a1, a2, a3, a4⟩ := loop_data (w := w) (m := m) (shaped := shaped) hr.block.1 requests turns (bytes stdin) stdin s0 (by rw [i1]; exact hm) (by rw [i1]; exact nofun) (by rw [i1]; exact fun x h => h)
    (by rw [i1, i2]; rfl) (by rw [i3]; exact i4)
  refine ⟨s', rest, sizes, a1, a3, a2.total, fun h => by rw [a2.checksum, if_neg h], a2.sum, a2.count, a2.burst, fun n t hn => ?_⟩
  obtain ⟨b1, b2, b3, b4, b5⟩ := a4 n t hn
  exact ⟨b1, b2, b3, b4, b5⟩

/-- A shaper whose fields hold rubbish. -/
def rubbish : Shaper := ⟨Throttle.rubbish, Throttle.rubbish⟩

/-- A clock that goes on by a hundredth of a second with each reading, and an output that accepts everything. -/
def world : World := ⟨fun i => 10000000 * min i 1000, fun _ => none, 1000⟩

/-- Five bytes in blocks of two, with a failure of the reading after the third, which only makes that block shorter. -/
example : Reasonable ⟨2, 0, 0, 0, 0⟩ ∧ Suits .block 2 [some 1#8, some 0#8, some 3#8, none, some 4#8] ∧
    ∃ t, main world .block ⟨2, 0, 0, 0, 0⟩ true rubbish [some 1#8, some 0#8, some 3#8, none, some 4#8] 0 10 = .exit 0 t ∧ t.out = [1#8, 0#8, 3#8, 4#8] ∧ t.count = 3 ∧ t.total = 4 ∧ t.burst = 2 := by
  refine ⟨⟨⟨by decide, by decide⟩, by decide, by decide⟩, nofun, ?_⟩
  exact ⟨(main world .block ⟨2, 0, 0, 0, 0⟩ true rubbish [some 1#8, some 0#8, some 3#8, none, some 4#8] 0 10).state.getD (start rubbish []), by decide +kernel⟩

/-- Two lines, of which the first does not fit. -/
example : Suits .line 3 [some 97#8, some 98#8, some 99#8, some 10#8, some 97#8] ∧
    ∃ t, main world .line ⟨3, 0, 0, 0, 0⟩ true rubbish [some 97#8, some 98#8, some 99#8, some 10#8, some 97#8] 0 10 = .exit 0 t ∧ t.out = [97#8, 98#8, 99#8, 10#8, 97#8] ∧ t.count = 3 := by
  refine ⟨fun _ => by decide, ?_⟩
  exact ⟨(main world .line ⟨3, 0, 0, 0, 0⟩ true rubbish [some 97#8, some 98#8, some 99#8, some 10#8, some 97#8] 0 10).state.getD (start rubbish []), by decide +kernel⟩

/-- C153.  Of a line with a zero byte in it what follows the zero byte is lost, and the tool ends with a status of zero. -/
theorem shaperbuffered_data_counterexample : ¬ ∀ (w : World) (m : Mode) (o : Options), Reasonable o → ∀ (garbage : Shaper) (stdin : List (Option Byte)) (requests turns : Nat) (s : State),
    main w m o true garbage stdin requests turns = .exit 0 s → s.out = bytes stdin := by
  intro h
  have := h world .line ⟨512, 0, 0, 0, 0⟩ ⟨⟨by decide, by decide⟩, by decide, by decide⟩ rubbish [some 97#8, some 0#8, some 98#8, some 10#8] 0 10
    ((main world .line ⟨512, 0, 0, 0, 0⟩ true rubbish [some 97#8, some 0#8, some 98#8, some 10#8] 0 10).state.getD (start rubbish [])) (by decide +kernel)
  revert this
  decide +kernel

/-- C153.  A line that begins with a zero byte, and any line with a buffer of one byte, is an error, although no reading has failed. -/
theorem shaperbuffered_status_counterexample : ¬ ∀ (w : World) (m : Mode) (o : Options), Reasonable o → ∀ (garbage : Shaper) (stdin : List (Option Byte)) (requests turns : Nat) (s : State),
    main w m o true garbage stdin requests turns = .exit 3 s → none ∈ stdin := by
  intro h
  have := h world .line ⟨1, 0, 0, 0, 0⟩ ⟨⟨by decide, by decide⟩, by decide, by decide⟩ rubbish [some 97#8, some 10#8] 0 10
    ((main world .line ⟨1, 0, 0, 0, 0⟩ true rubbish [some 97#8, some 10#8] 0 10).state.getD (start rubbish [])) (by decide +kernel)
  revert this
  decide +kernel

/-- C153.  What has been accepted need not arrive: that the buffer of the standard output cannot be written at the end is not noticed. -/
theorem shaperbuffered_delivery_counterexample : ¬ ∀ (w : World) (o : Options), Reasonable o → ∀ (garbage : Shaper) (stdin : List (Option Byte)) (requests turns : Nat) (s : State),
    main w .block o true garbage stdin requests turns = .exit 0 s → delivered w s = bytes stdin := by
  intro h
  have := h ⟨fun i => 10000000 * min i 1000, fun _ => none, 0⟩ ⟨512, 0, 0, 0, 0⟩ ⟨⟨by decide, by decide⟩, by decide, by decide⟩ rubbish [some 97#8] 0 10
    ((main ⟨fun i => 10000000 * min i 1000, fun _ => none, 0⟩ .block ⟨512, 0, 0, 0, 0⟩ true rubbish [some 97#8] 0 10).state.getD (start rubbish [])) (by decide +kernel)
  revert this
  decide +kernel

/-- C154.  With a sustained rate, unless the options are refused, what is released in any interval is at most the rate times the length of the interval, the maximum burst, the jitter, and one block; at any point of any run, in any mode and whatever the input. -/
theorem shaperbuffered_sustained {w : World} (hs : Steady w) (m : Mode) {o : Options} (hr : Reasonable o) (h0 : o.sustained ≠ 0) (hacc : o.peak = 0 ∨ o.burst = 0 ∨ o.sustained ≤ o.peak) (garbage : Shaper)
    (stdin : List (Option Byte)) (requests turns : Nat) :
    ∃ t, (main w m o true garbage stdin requests turns).state = some t ∧ ∀ u v,
      (volume u v t.commits - o.block.toNat) * 10 ^ 9 ≤ (v + o.jitter.toNat * 1000) * o.sustained.toNat + (o.burst.toNat - 1) * (10 ^ 9 + o.sustained.toNat) := by
  have key : ∃ p b, ShaperTool.rates o = some (p, o.sustained, b) ∧ p ≠ 0 ∧ o.sustained ≤ p ∧ b.toNat ≤ o.burst.toNat := by
    unfold ShaperTool.rates
    rw [if_neg h0]
    by_cases h1 : o.peak = 0
    · rw [if_pos h1]; exact ⟨_, _, rfl, h0, BitVec.le_refl _, Nat.zero_le _⟩
    · rw [if_neg h1]
      by_cases h2 : o.burst = 0
      · rw [if_pos h2]; exact ⟨_, _, rfl, h0, BitVec.le_refl _, Nat.zero_le _⟩
      · have h3 : o.sustained ≤ o.peak := by
          rcases hacc with h | h | h
          · exact absurd h h1
          · exact absurd h h2
          · exact h
        rw [if_neg h2, if_neg (by rw [gt_iff_lt, BitVec.lt_def]; rw [BitVec.le_def] at h3; omega)]
        exact ⟨_, _, rfl, h1, h3, Nat.le_refl _⟩
  obtain ⟨p, b, k1, k2, k3, k4⟩ := key
  obtain ⟨t, t1, t2⟩ := main_rate hs m hr k1 k2 h0 k3 k4 garbage stdin requests turns
  refine ⟨t, t1, fun u v => Nat.le_trans (t2 u v).2 (Nat.add_le_add_left (Nat.mul_le_mul_right _ (by omega)) _)⟩

/-- C154.  The property asks for the same of the peak rate, without the burst.  It is so unless there is a higher sustained rate and no maximum burst size. -/
theorem shaperbuffered_peak_partial {w : World} (hs : Steady w) (m : Mode) {o : Options} (hr : Reasonable o) (h0 : o.peak ≠ 0) (hacc : o.sustained = 0 ∨ o.sustained ≤ o.peak) (garbage : Shaper)
    (stdin : List (Option Byte)) (requests turns : Nat) :
    ∃ t, (main w m o true garbage stdin requests turns).state = some t ∧ ∀ u v,
      (volume u v t.commits - o.block.toNat) * 10 ^ 9 ≤ (v + o.jitter.toNat * 1000) * o.peak.toNat := by
  have key : ∃ p s b, ShaperTool.rates o = some (p, s, b) ∧ p ≠ 0 ∧ s ≠ 0 ∧ s ≤ p ∧ b.toNat ≤ o.burst.toNat ∧ p.toNat ≤ o.peak.toNat := by
    unfold ShaperTool.rates
    by_cases h1 : o.sustained = 0
    · rw [if_pos h1]; exact ⟨_, _, _, rfl, h0, h0, BitVec.le_refl _, Nat.zero_le _, Nat.le_refl _⟩
    · have h3 : o.sustained ≤ o.peak := by
        rcases hacc with h | h
        · exact absurd h h1
        · exact h
      have h3' := h3
      rw [BitVec.le_def] at h3
      rw [if_neg h1, if_neg h0]
      by_cases h2 : o.burst = 0
      · rw [if_pos h2]; exact ⟨_, _, _, rfl, h1, h1, BitVec.le_refl _, Nat.zero_le _, h3⟩
      · rw [if_neg h2, if_neg (by rw [gt_iff_lt, BitVec.lt_def]; omega)]
        exact ⟨_, _, _, rfl, h0, h1, h3', Nat.le_refl _, Nat.le_refl _⟩
  obtain ⟨p, s, b, k1, k2, k3, k4, k5, k6⟩ := key
  obtain ⟨t, t1, t2⟩ := main_rate hs m hr k1 k2 k3 k4 k5 garbage stdin requests turns
  exact ⟨t, t1, fun u v => Nat.le_trans (t2 u v).1 (Nat.mul_le_mul_left _ k6)⟩

example : Steady world := by
  refine ⟨fun i j h => ?_, fun i => ?_⟩ <;> simp only [world] <;> omega

/-- Three bytes at a peak rate of 100 bytes in a second and a sustained rate of 10: with a maximum burst of two the second is released soon after the first. -/
example : Reasonable ⟨1, 100, 10, 2, 0⟩ ∧
    ∃ t, main world .character ⟨1, 100, 10, 2, 0⟩ true rubbish [some 1#8, some 2#8, some 3#8] 100 10 = .exit 0 t ∧ t.out = [1#8, 2#8, 3#8] ∧ t.commits = [(20000000, 1), (40000000, 1), (130000000, 1)] := by
  refine ⟨⟨⟨by decide, by decide⟩, by decide, by decide⟩, ?_⟩
  exact ⟨(main world .character ⟨1, 100, 10, 2, 0⟩ true rubbish [some 1#8, some 2#8, some 3#8] 100 10).state.getD (start rubbish []), by decide +kernel⟩

/-- C154.  With a sustained rate of 100 bytes in a second and a peak rate of 10, but no maximum burst size, the peak rate is forgotten. -/
theorem shaperbuffered_peak_counterexample : ¬ ∀ (w : World), Steady w → ∀ (m : Mode) (o : Options), Reasonable o → o.peak ≠ 0 → ∀ (garbage : Shaper) (stdin : List (Option Byte)) (requests turns : Nat),
    ∃ t, (main w m o true garbage stdin requests turns).state = some t ∧ ∀ u v,
      (volume u v t.commits - o.block.toNat) * 10 ^ 9 ≤ (v + o.jitter.toNat * 1000) * o.peak.toNat := by
  intro h
  obtain ⟨t, t1, t2⟩ := h world ⟨fun i j h => by simp only [world]; omega, fun i => by simp only [world]; omega⟩ .block ⟨1, 10, 100, 0, 0⟩ ⟨⟨by decide, by decide⟩, by decide, by decide⟩
    (by decide) rubbish [some 1#8, some 2#8, some 3#8, some 4#8, some 5#8, some 6#8] 10 10
  have key : (main world .block ⟨1, 10, 100, 0, 0⟩ true rubbish [some 1#8, some 2#8, some 3#8, some 4#8, some 5#8, some 6#8] 10 10).state.map (fun t => volume 0 200000000 t.commits) = some 6 := by decide +kernel
  rw [t1] at key
  have key : volume 0 200000000 t.commits = 6 := by simpa using key
  have := t2 0 200000000
  rw [key] at this
  revert this
  decide

/-- C154.  Without a rate nothing is waited for: however many requests of the shaper are allowed the tool ends, at the latest with as many turns as there is input and one more. -/
theorem shaperbuffered_unshaped (w : World) (m : Mode) {o : Options} (hp : o.peak = 0) (hs : o.sustained = 0) (memory : Bool) (garbage : Shaper) (stdin : List (Option Byte)) (requests : Nat) {turns : Nat} (ht : stdin.length < turns) :
    ∃ n t, main w m o memory garbage stdin requests turns = .exit n t := by
  unfold main
  by_cases hb : o.block = 0
  · rw [if_pos hb]; exact ⟨_, _, rfl⟩
  · rw [if_neg hb]
    have e : ShaperTool.rates o = some (0, 0, 0) := by unfold ShaperTool.rates; rw [if_pos hs, hp]
    rw [e]
    cases memory with
    | false => exact ⟨_, _, rfl⟩
    | true =>
      show ∃ n t, loop w m o.block false requests turns { start garbage stdin with readings := 1 } = .exit n t
      exact loop_ends w m o.block requests turns _ ht

example : ∃ n t, main world .line ⟨0, 0, 0, 0, 0⟩ true rubbish [some 1#8] 0 2 = .exit n t := shaperbuffered_unshaped world .line rfl rfl true rubbish _ 0 (by decide)

/-- C153: without a block, or without memory for one, nothing is written and the tool fails. -/
theorem shaperbuffered_refuses (w : World) (m : Mode) (o : Options) (memory : Bool) (h : o.block = 0 ∨ memory = false) (garbage : Shaper) (stdin : List (Option Byte)) (requests turns : Nat) :
    ∃ n s, main w m o memory garbage stdin requests turns = .exit n s ∧ n ≠ 0 ∧ s.out = [] := by
  unfold main
  by_cases hb : o.block = 0
  · rw [if_pos hb]; exact ⟨_, _, rfl, by decide, rfl⟩
  · rcases h with h | rfl
    · exact absurd h hb
    · rw [if_neg hb]
      cases ShaperTool.rates o with
      | none => exact ⟨_, _, rfl, by decide, rfl⟩
      | some r => exact ⟨2, start garbage stdin, rfl, by decide, rfl⟩

example : ∃ n s, main world .block ⟨0, 0, 0, 0, 0⟩ true rubbish [some 97#8] 0 10 = .exit n s ∧ n ≠ 0 ∧ s.out = [] :=
  shaperbuffered_refuses world .block ⟨0, 0, 0, 0, 0⟩ true (Or.inl rfl) rubbish [some 97#8] 0 10

end Diminuto.Shaperbuffered
