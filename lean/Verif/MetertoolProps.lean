import Verif.MetertoolLemmas
import Verif.MeterProps

/-!
# Properties of the tool that measures what goes through it

The claims: (1) the tool writes what it reads, nothing else, in order, and exits with zero if it has written all of it or has been told to end, and with three if something failed; (2) the last thing it does is to report the bytes that it has passed on, since when, and
the rates; (3) a signal to interrupt or to terminate it ends it.

(1) is false if the kernel takes a part of a block and then fails: the rest of the block is lost and the status is zero, `metertool_data_counterexample`.  (2) is false then, since what has been read is counted, and if the clock goes back.  (3) is false if the signal comes while the tool waits for input,
`metertool_signal_counterexample`: it goes on waiting.  (The processor is asked to restart nothing, so that the read does fail; but the signal is only looked at after the next block has been passed on.)
-/

namespace Diminuto.Metertool

open Diminuto.Fd (Source Sink)
open Diminuto.ShaperTool (content Willing)

/-- A block of four bytes, two of which come at first; a hangup after the first turn; a failure of the reading; the end. -/
def exampleWorld : World where
  clock n := BitVec.ofNat 64 (1000 + n * 10)
  interrupts n := if n = 2 then [.hup] else []
  arrives n := if n = 1 then [.hup] else []
  rate := Meter.exactRate

def exampleInput : List Source := [.data [1, 2], .error, .data [3, 4, 5, 6, 7], .eof]

def exampleOutput : List Sink := [.room 1, .room 9, .room 9, .room 9]

theorem exampleWilling : Willing exampleOutput := by
  intro e he
  simp only [exampleOutput, List.mem_cons, List.not_mem_nil, or_false] at he
  rcases he with rfl | rfl | rfl | rfl
  · exact ⟨0, rfl⟩
  all_goals exact ⟨8, rfl⟩

def exampleState : State := ((main exampleWorld false 4 (some [0, 0, 0, 0]) exampleInput exampleOutput 9).state).getD (start exampleWorld [] [] [])

theorem exampleExit : main exampleWorld false 4 (some [0, 0, 0, 0]) exampleInput exampleOutput 9 = .exit 0 exampleState := by decide +kernel

theorem exampleSteady : Steady { exampleWorld with clock := fun _ => 1000 } := fun _ _ _ => BitVec.le_refl _

/-- C156: what goes through the tool, if the reader takes what it is given.  Missing is only that. -/
theorem metertool_data_partial (w : World) (verbose : Bool) (block : BitVec 64) (h0 : 0 < block.toNat) (h63 : block.toNat < 2 ^ 63) (memory : List Byte) (hm : memory.length = block.toNat) (input : List Source) (output : List Sink)
    (hw : Willing output) (turns : Nat) :
    (∃ s, (main w verbose block (some memory) input output turns).state = some s ∧ s.out <+: content input) ∧
    ∀ n s, main w verbose block (some memory) input output turns = .exit n s → n = 0 ∧ (s.out = content input ∨ Told w) ∨ n = 3 ∧ .error ∈ input := by
  have h := main_over w verbose block h0 h63 memory hm input output hw turns
  generalize main w verbose block (some memory) input output turns = o at h ⊢
  cases o with
  | exit n s =>
    obtain ⟨s', e, hf⟩ := h
    have hout : s.out = s'.out := by
      unfold finish at hf
      have hf := (Outcome.exit.inj hf).2
      rw [← hf]
    refine ⟨⟨s, rfl, by rw [hout]; exact e.bytes⟩, ?_⟩
    intro n' s'' h'
    obtain ⟨rfl, rfl⟩ := Outcome.exit.inj h'
    rw [hout]
    exact e.status
  | blocks s => exact ⟨⟨s, rfl, h.bytes⟩, nofun⟩
  | running s => exact ⟨⟨s, rfl, ⟨_, h.bytes.symm⟩⟩, nofun⟩
  | undefined => exact h.elim

example : ∃ n, main exampleWorld false 4 (some [0, 0, 0, 0]) exampleInput exampleOutput 9 = .exit n exampleState ∧ n = 0 ∧ exampleState.out = [1, 2, 3, 4, 5, 6, 7] := ⟨0, exampleExit, rfl, by decide +kernel⟩

example : (∃ s, (main exampleWorld false 4 (some [0, 0, 0, 0]) exampleInput exampleOutput 9).state = some s ∧ s.out <+: content exampleInput) :=
  (metertool_data_partial exampleWorld false 4 (by decide) (by decide) [0, 0, 0, 0] rfl exampleInput exampleOutput exampleWilling 9).1

/-- C156: the kernel takes one byte of two, then fails, then takes the rest: a byte in the middle is missing, and the status is zero. -/
theorem metertool_data_counterexample : ¬ ∀ (w : World) (verbose : Bool) (block : BitVec 64) (memory : List Byte) (input : List Source) (output : List Sink) (turns : Nat), 0 < block.toNat → memory.length = block.toNat → ¬ Told w →
    ∀ s, main w verbose block (some memory) input output turns = .exit 0 s → s.out = content input := by
  intro h
  let w : World := ⟨fun n => BitVec.ofNat 64 n, fun _ => [], fun _ => [], Meter.exactRate⟩
  have e : ∃ s, main w false 4 (some [0, 0, 0, 0]) [.data [1, 2], .data [3], .eof] [.room 1, .error, .room 9] 9 = .exit 0 s ∧ s.out = [1, 3] :=
    ⟨((main w false 4 (some [0, 0, 0, 0]) [.data [1, 2], .data [3], .eof] [.room 1, .error, .room 9] 9).state).getD (start w [] [] []), by decide +kernel, by decide +kernel⟩
  obtain ⟨s, h1, h2⟩ := e
  have := h w false 4 [0, 0, 0, 0] [.data [1, 2], .data [3], .eof] [.room 1, .error, .room 9] 9 (by decide) rfl (by
    rintro ⟨i, g, h | h, _⟩ <;> exact nomatch h) s h1
  rw [h2] at this
  exact absurd this (by decide)

/-- C157: the last report.  It counts the bytes that have been written, from the beginning to the end by the clock; the rate sustained is the one for these; the largest burst and the peak are those of the blocks, the sizes of which add up.  Missing are a reader that does not take what it is given, and a
clock that goes back. -/
theorem metertool_report_partial (w : World) (hs : Steady w) (verbose : Bool) (block : BitVec 64) (h0 : 0 < block.toNat) (h63 : block.toNat < 2 ^ 63) (memory : List Byte) (hm : memory.length = block.toNat) (input : List Source) (output : List Sink)
    (hw : Willing output) (hb : (content input).length < 2 ^ 64) (turns : Nat) (n : Nat) (s : State) (h : main w verbose block (some memory) input output turns = .exit n s) :
    ∃ m, s.reports.getLast? = some m ∧ m = s.meter ∧ m.events.toNat = s.out.length ∧ m.start = w.clock 0 ∧ m.last = w.clock (s.turns + 1) ∧
      Meter.sustained w.rate m = (if s.out = [] then .finite 0 else if w.clock (s.turns + 1) = w.clock 0 then .infinite
        else .finite (w.rate (BitVec.ofNat 64 s.out.length) (w.clock (s.turns + 1) - w.clock 0))) ∧
      (s.history.map (·.2.toNat)).sum = s.out.length ∧ (∀ x ∈ s.history, x.2 ≠ 0#64 ∧ x.2.toNat ≤ block.toNat) ∧ m.count.toNat = s.history.length ∧
      m.burst.toNat = (s.history.map (·.2.toNat)).foldl max 0 ∧ Meter.IsPeak (Meter.rates w.rate false (w.clock 0) s.history) m.peak := by
  have ho := main_over w verbose block h0 h63 memory hm input output hw turns
  rw [h] at ho
  obtain ⟨s', e, hf⟩ := ho
  unfold finish at hf
  have hf := (Outcome.exit.inj hf).2
  obtain ⟨hsort, i, hi, hlate⟩ := e.sorted hs
  have hlen : s'.out.length < 2 ^ 64 := Nat.lt_of_le_of_lt (e.bytes.length_le) hb
  have hsort' : Meter.Sorted (w.clock 0) (s'.history ++ [(w.clock (s'.turns + 1), 0)]) := by
    rw [Meter.sorted_append, hlate]
    exact ⟨hsort, hs i _ (by omega)⟩
  have htot : Meter.total (s'.history ++ [(w.clock (s'.turns + 1), 0)]) = s'.out.length := by
    rw [Meter.total_append, e.total]; simp
  have hmeas := Meter.meter_measures w.rate (w.clock 0) (s'.history ++ [(w.clock (s'.turns + 1), 0)]) hsort' (by rw [htot]; exact hlen)
  have hm' : (Meter.run w.rate (Meter.reset (w.clock 0)) (s'.history ++ [(w.clock (s'.turns + 1), 0)])).1 = s.meter := by
    rw [Meter.run_append, ← e.meter, ← hf]
    rfl
  simp only [] at hmeas
  rw [hm'] at hmeas
  rw [htot, Meter.latest_append] at hmeas
  obtain ⟨q1, q2, q3, q4, q5, q6, q7⟩ := hmeas
  have hcalls : Meter.calls (s'.history ++ [(w.clock (s'.turns + 1), 0)]) = s'.history.length := by
    rw [Meter.calls_append, if_pos (by rfl)]
    unfold Meter.calls
    rw [List.filter_eq_self.mpr (fun x hx => by simpa using (e.sizes x hx).1)]
    rfl
  have hrates : Meter.rates w.rate false (w.clock 0) (s'.history ++ [(w.clock (s'.turns + 1), 0)]) = Meter.rates w.rate false (w.clock 0) s'.history := by
    rw [Meter.rates_append]; simp
  have hlarge : Meter.largest (s'.history ++ [(w.clock (s'.turns + 1), 0)]) = Meter.largest s'.history := by
    rw [Meter.largest_append]; simp
  rw [hcalls] at q3
  rw [hrates] at q7
  rw [hlarge] at q2
  have hout : s.out = s'.out := by rw [← hf]
  have hhist : s.history = s'.history := by rw [← hf]
  have hturns : s.turns = s'.turns := by rw [← hf]
  refine ⟨s.meter, ?_, rfl, ?_, q4, ?_, ?_, ?_, ?_, ?_, ?_, ?_⟩
  · rw [← hf]; simp
  · rw [hout]; exact q1
  · rw [hturns]; exact q5
  · rw [hout, hturns, q6]
    by_cases hz : s'.out = []
    · rw [if_pos hz, if_pos (by rw [hz]; rfl)]
    · rw [if_neg hz, if_neg (fun h => hz (List.length_eq_zero_iff.mp h))]
  · rw [hhist, hout]; exact e.total
  · rw [hhist]; exact e.sizes
  · rw [hhist]; exact q3
  · rw [hhist]; exact q2
  · rw [hhist]; exact q7

example : exampleState.reports.map (fun m => (m.events, m.burst, m.count, m.last)) = [(2, 2, 1, 1010), (6, 4, 2, 1030), (7, 4, 3, 1060)] := by decide +kernel

example : ∃ m, exampleState.reports.getLast? = some m ∧ m.events.toNat = 7 ∧ m.start = 1000 ∧ m.last = 1060 := ⟨exampleState.meter, by decide +kernel, by decide +kernel, by decide +kernel, by decide +kernel⟩

example : ∃ m, (((main { exampleWorld with clock := fun _ => 1000 } false 4 (some [0, 0, 0, 0]) exampleInput exampleOutput 9).state).getD exampleState).reports.getLast? = some m ∧ m.events.toNat = 7 := by
  obtain ⟨m, h1, _, h2, _⟩ := metertool_report_partial { exampleWorld with clock := fun _ => 1000 } exampleSteady false 4 (by decide) (by decide) [0, 0, 0, 0] rfl exampleInput exampleOutput exampleWilling (by decide) 9 0
    (((main { exampleWorld with clock := fun _ => 1000 } false 4 (some [0, 0, 0, 0]) exampleInput exampleOutput 9).state).getD exampleState) (by decide +kernel)
  exact ⟨m, h1, by rw [h2]; decide +kernel⟩

/-- C157: every report, not only the last one, is of the blocks so far; with the verbose option there is one for each of them. -/
theorem metertool_reports (w : World) (verbose : Bool) (block : BitVec 64) (h0 : 0 < block.toNat) (h63 : block.toNat < 2 ^ 63) (memory : List Byte) (hm : memory.length = block.toNat) (input : List Source) (output : List Sink)
    (hw : Willing output) (turns : Nat) (s : State) (h : main w verbose block (some memory) input output turns = .running s) :
    (verbose = true → s.reports.length = s.history.length) ∧ (∀ m ∈ s.reports, ∃ h, h <+: s.history ∧ m = (Meter.run w.rate (Meter.reset (w.clock 0)) h).1) := by
  have ho := main_over w verbose block h0 h63 memory hm input output hw turns
  rw [h] at ho
  exact ⟨ho.reports, ho.snapshots⟩

example : ∃ s, main exampleWorld true 4 (some [0, 0, 0, 0]) exampleInput exampleOutput 3 = .running s ∧ s.reports.length = 2 ∧ s.history.length = 2 :=
  ⟨((main exampleWorld true 4 (some [0, 0, 0, 0]) exampleInput exampleOutput 3).state).getD exampleState, by decide +kernel, by decide +kernel, by decide +kernel⟩

/-- C157: what has been read and not written is counted: the last report says two, one byte has been written, and the status is zero. -/
theorem metertool_report_counterexample : ¬ ∀ (w : World) (verbose : Bool) (block : BitVec 64) (memory : List Byte) (input : List Source) (output : List Sink) (turns : Nat), Steady w → 0 < block.toNat → memory.length = block.toNat →
    ∀ s, main w verbose block (some memory) input output turns = .exit 0 s → s.meter.events.toNat = s.out.length := by
  intro h
  let w : World := ⟨fun _ => 0, fun _ => [], fun _ => [], Meter.exactRate⟩
  have e : ∃ s, main w false 4 (some [0, 0, 0, 0]) [.data [1, 2], .eof] [.room 1, .error] 9 = .exit 0 s ∧ s.meter.events.toNat = 2 ∧ s.out.length = 1 :=
    ⟨((main w false 4 (some [0, 0, 0, 0]) [.data [1, 2], .eof] [.room 1, .error] 9).state).getD (start w [] [] []), by decide +kernel, by decide +kernel, by decide +kernel⟩
  obtain ⟨s, h1, h2, h3⟩ := e
  have := h w false 4 [0, 0, 0, 0] [.data [1, 2], .eof] [.room 1, .error] 9 (fun _ _ _ => BitVec.le_refl _) (by decide) rfl s h1
  omega

/-- C158: a signal that is to end the tool is never left waiting, neither between the turns nor while the tool waits for the input or for the reader, as long as those that interrupt the reading are hangups. -/
theorem metertool_signal_partial (w : World) (verbose : Bool) (block : BitVec 64) (memory : Option (List Byte)) (input : List Source) (output : List Sink) (turns : Nat) (hi : ∀ i, ∀ g ∈ w.interrupts i, g = .hup) :
    ∀ s, (main w verbose block memory input output turns = .running s ∨ main w verbose block memory input output turns = .blocks s) → ∀ g ∈ s.pending, g = .hup := by
  intro s h
  unfold main at h
  by_cases hb : block = 0
  · rw [if_pos hb] at h
    rcases h with h | h <;> exact nomatch h
  · rw [if_neg hb] at h
    cases memory with
    | none => rcases h with h | h <;> exact nomatch h
    | some memory =>
      simp only [] at h
      have := loop_hup w verbose block hi turns (start w memory input output) (fun _ h => nomatch h)
      rcases h with h | h <;> (rw [h] at this; exact this)

example : ∃ s, main exampleWorld false 4 (some [0, 0, 0, 0]) (exampleInput.take 2) exampleOutput 9 = .blocks s ∧ s.pending = [.hup] ∧ ∀ g ∈ s.pending, g = .hup :=
  ⟨((main exampleWorld false 4 (some [0, 0, 0, 0]) (exampleInput.take 2) exampleOutput 9).state).getD exampleState, by decide +kernel, by decide +kernel,
    metertool_signal_partial exampleWorld false 4 (some [0, 0, 0, 0]) (exampleInput.take 2) exampleOutput 9 (by
      intro i g hg
      simp only [exampleWorld] at hg
      split at hg
      · exact List.mem_singleton.mp hg
      · exact nomatch hg) _ (Or.inr (by decide +kernel))⟩

/-- C158: interrupted while it waits for input, the tool goes on waiting. -/
theorem metertool_signal_counterexample : ∃ (w : World) (s : State), w.interrupts 1 = [.int] ∧ ∀ turns, 2 ≤ turns → main w false 4 (some [0, 0, 0, 0]) [.error] [] turns = .blocks s ∧ s.pending = [.int] := by
  let w : World := ⟨fun _ => 0, fun _ => [.int], fun _ => [], Meter.exactRate⟩
  refine ⟨w, ((main w false 4 (some [0, 0, 0, 0]) [.error] [] 2).state).getD (start w [] [] []), rfl, ?_⟩
  intro turns ht
  obtain ⟨k, rfl⟩ : ∃ k, turns = k + 2 := ⟨turns - 2, by omega⟩
  exact ⟨by rfl, by decide +kernel⟩

/-- C158: a signal that ends the tool leaves nothing behind in the buffer: if the tool exits with zero, it has written all that it has read. -/
theorem metertool_signal_flushed (w : World) (verbose : Bool) (block : BitVec 64) (h0 : 0 < block.toNat) (h63 : block.toNat < 2 ^ 63) (memory : List Byte) (hm : memory.length = block.toNat) (input : List Source) (output : List Sink)
    (hw : Willing output) (turns : Nat) (n : Nat) (s : State) (h : main w verbose block (some memory) input output turns = .exit n s) : Meter.total s.history = s.out.length := by
  have ho := main_over w verbose block h0 h63 memory hm input output hw turns
  rw [h] at ho
  obtain ⟨s', e, hf⟩ := ho
  unfold finish at hf
  have hf := (Outcome.exit.inj hf).2
  rw [← hf]
  exact e.total

example : Meter.total exampleState.history = exampleState.out.length :=
  metertool_signal_flushed exampleWorld false 4 (by decide) (by decide) [0, 0, 0, 0] rfl exampleInput exampleOutput exampleWilling 9 0 exampleState exampleExit

/-- C156: if the reader is gone before anything has been written, the tool succeeds only if there is nothing to be written. -/
theorem metertool_gone (w : World) (verbose : Bool) (block : BitVec 64) (h0 : 0 < block.toNat) (h63 : block.toNat < 2 ^ 63) (memory : List Byte) (hm : memory.length = block.toNat) (input : List Source) (k : List Sink) (turns : Nat) (s : State)
    (h : main w verbose block (some memory) input (.error :: k) turns = .exit 0 s) : content input = [] := by
  unfold main at h
  rw [if_neg (by intro h; rw [h] at h0; simp at h0)] at h
  exact loop_gone w verbose block h0 h63 k turns (start w memory input (.error :: k)) s rfl hm h

example : (∃ s, main exampleWorld false 4 (some [0, 0, 0, 0]) [.eof] [.error] 9 = .exit 0 s) ∧ ∃ s, main exampleWorld false 4 (some [0, 0, 0, 0]) [.data [1], .eof] [.error] 9 = .exit 3 s :=
  ⟨⟨((main exampleWorld false 4 (some [0, 0, 0, 0]) [.eof] [.error] 9).state).getD exampleState, by decide +kernel⟩, ⟨((main exampleWorld false 4 (some [0, 0, 0, 0]) [.data [1], .eof] [.error] 9).state).getD exampleState, by decide +kernel⟩⟩

end Diminuto.Metertool
