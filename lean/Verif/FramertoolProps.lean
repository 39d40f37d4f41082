import Verif.FramertoolLemmas3

/-!
# Properties of the tool that passes lines of text over a serial line

C138 to C140, of `Diminuto/bin/framertool.c`.
-/

namespace Diminuto.Framertool

open Framer

/-- A tool with a buffer of eight octets. -/
def eight : Config := ⟨8, false⟩

/-- Memory. -/
def stars : List Byte := List.replicate 8 0x2a#8

/-- Frames: a line of one letter, and one of two. -/
def frameA : List Byte := [126, 0, 2, 0, 0, 2, 6, 65, 125, 42, 47, 35, 68, 10]
def frameB : List Byte := [126, 0, 3, 0, 1, 4, 125, 42, 66, 67, 125, 42, 39, 34, 58, 10]

/-! ## C138: what is typed is written as frames -/

/-- **C138.** Whatever happens on the device and the standard output: the lines that have been typed, cut to what fits in the buffer, with their newlines, have been written to the device, each as one valid frame, in their order, with
consecutive numbers from zero.  What is left is the beginning of a line and what has not been read; unless the device has failed, and then at most a part of one more frame has been written. -/
theorem framertool_lines_partial (w : World) (c : Config) (memory : List Byte) (hsize : 1 ≤ c.size ∧ c.size ≤ 65535) (events : List Event) (s : State) (h : run w c (start c memory) events = some s) :
    ∃ (lines : List (List Byte)) (rest : List Byte), typed events = (lines.map (· ++ [0x0a#8])).flatten ++ rest ∧ (∀ l ∈ lines, 0x0a#8 ∉ l) ∧
      (∀ i (h1 : i < (written s.log).length) (h2 : i < lines.length), IsFrame (written s.log)[i] (message c.size lines[i]) (BitVec.ofNat 16 i)) ∧
      (s.deveof = false → (written s.log).length = lines.length ∧ ∃ part, rest = part ++ s.keys ∧ 0x0a#8 ∉ part) ∧
      ((written s.log).length = lines.length ∨ ∃ octets l more k, rest = l ++ 0x0a#8 :: more ∧ 0x0a#8 ∉ l ∧ IsFrame octets (message c.size l) (BitVec.ofNat 16 lines.length) ∧
        (written s.log).drop lines.length = [octets.take k]) := by
  have hi := (run_inv w c memory hsize events [] [] _ s h (start_inp c memory) (start_dev c memory)).1
  rw [List.nil_append] at hi
  obtain ⟨ls, cur, rest, fr, tail, a1, a2, a3, a4, a5, a6, a7, a8⟩ := hi
  have hl : fr.length = ls.length := by
    have := congrArg List.length a4
    rwa [List.length_map, List.length_map] at this
  refine ⟨ls, rest, a1, a2, ?_, ?_, ?_⟩
  · intro i h1 h2
    have hi : i < fr.length := by omega
    have e1 : (written s.log)[i] = fr[i].1 := by simp [a3, List.getElem_append, hi]
    have e2 : message c.size ls[i] = fr[i].2.1 := by
      have : (fr.map (·.2.1))[i]'(by rw [List.length_map]; exact hi) = (ls.map (message c.size))[i]'(by rw [List.length_map]; exact h2) := by simp only [a4]
      simpa using this.symm
    have e3 : fr[i].2.2 = BitVec.ofNat 16 i := by
      have : (fr.map (·.2.2))[i]'(by rw [List.length_map]; exact hi) = ((List.range fr.length).map (BitVec.ofNat 16))[i]'(by simpa using hi) := by simp only [a6]
      simpa using this
    rw [e1, e2, ← e3]
    exact (a5 fr[i] (List.getElem_mem hi)).1
  · intro hd
    obtain ⟨b1, b2, b3, _⟩ := a7 hd
    refine ⟨?_, cur, b2, b3⟩
    rw [a3, b1, List.append_nil, List.length_map, hl]
  · rcases a8 with a8 | ⟨octets, l, more, k, c1, c2, c3, c4⟩
    · refine Or.inl ?_
      rw [a3, a8, List.append_nil, List.length_map, hl]
    · refine Or.inr ⟨octets, l, more, k, c1, c2, by rw [← hl]; exact c3, ?_⟩
      rw [a3, ← hl, c4]
      have : (fr.map (·.1)).length = fr.length := List.length_map ..
      rw [← this, List.drop_left]

/-- Two lines, in pieces, and the beginning of a third. -/
example : (run willing eight (start eight stars) [.type [0x41, 0x0a, 0x42], .ready (some 99) none true, .idle, .type [0x43, 0x0a, 0x44], .ready (some 99) none true]).map (fun s => (s.log, s.text)) =
    some ([.wrote frameA, .wrote frameB], [0x44#8]) := by
  decide +kernel

/-- A device that fails after three octets of the second frame. -/
example : (run ⟨fun log _ => if log = [] then none else some 3, fun _ _ => none⟩ eight (start eight stars) [.type [0x41, 0x0a, 0x42, 0x43, 0x0a, 0x44, 0x0a], .ready (some 99) none true]).map (fun s => (s.log, s.deveof)) =
    some ([.wrote frameA, .wrote (frameB.take 3)], true) := by
  decide +kernel

/-- **C138 is false** as it should be: what is typed after the last newline is never written, although the input has ended, however long one waits. -/
theorem framertool_unterminated_counterexample (n : Nat) :
    (run willing eight (start eight stars) ([.type [0x41, 0x0a, 0x42, 0x43], .ready (some 99) none true, .ready (some 99) none true] ++ List.replicate n .idle)).map (fun s => (s.log, s.inpeof, s.keys, s.held, over s)) =
      some ([.wrote frameA], true, [], [], false) := by
  have hidle : ∀ (n : Nat) (s : State), run willing eight s (List.replicate n .idle) = some s := by
    intro n
    induction n with
    | zero => intro s; rfl
    | succ n ih => intro s; rw [List.replicate_succ, run]; exact ih s
  have h0 : (run willing eight (start eight stars) [.type [0x41, 0x0a, 0x42, 0x43], .ready (some 99) none true, .ready (some 99) none true]).map (fun s => (s.log, s.inpeof, s.keys, s.held, over s)) =
      some ([.wrote frameA], true, [], [], false) := by decide +kernel
  rw [run_append]
  cases hr : run willing eight (start eight stars) [.type [0x41, 0x0a, 0x42, 0x43], .ready (some 99) none true, .ready (some 99) none true] with
  | none => rw [hr] at h0; cases h0
  | some x => rw [hr] at h0; rw [Option.bind_some, hidle]; exact h0

/-- A line that does not fit is cut, and nobody is told: two lines that differ are written as the same frame. -/
theorem framertool_cut_counterexample :
    (run willing ⟨3, false⟩ (start ⟨3, false⟩ stars) [.type [0x42, 0x43, 0x44, 0x0a], .ready (some 99) none true]).map (·.log) = (run willing ⟨3, false⟩ (start ⟨3, false⟩ stars) [.type [0x42, 0x43, 0x45, 0x0a], .ready (some 99) none true]).map (·.log) := by
  decide +kernel

/-- **C138 needs the size of the buffer to be at most 65535.** The option takes any size: with a larger one, a line of 65535 octets or more is more than a frame can carry, nothing is written, and the tool ends as if the device had. -/
theorem framertool_big_counterexample (w : World) (c : Config) (memory : List Byte) (hsize : 65536 ≤ c.size) (hstrict : c.strict = false) (l : List Byte) (hl : 65535 ≤ l.length) (hn : 0x0a#8 ∉ l) :
    ∃ s, run w c (start c memory) [.type (l ++ [0x0a#8]), .ready (some (l.length + 1)) none true] = some s ∧ s.deveof = true ∧ over s = true ∧ s.log = [] := by
  have hf := (framer_writer_emits_frame (init memory c.size) (l.take (c.size - 1) ++ [0x0a#8])).2 (by rw [List.length_append, List.length_take, List.length_singleton]; omega)
  have hne : l ++ [0x0a#8] ≠ [] := by simp
  have htake : (l ++ [0x0a#8]).take (l.length + 1) = l ++ [0x0a#8] := List.take_of_length_le (by simp)
  have hdrop : (l ++ [0x0a#8]).drop (l.length + 1) = [] := List.drop_of_length_le (by simp)
  have hlen : ¬ (c.size < (l.take (c.size - 1)).length + 1) := by rw [List.length_take]; omega
  refine ⟨{ start c memory with text := l.take (c.size - 1) ++ [0x0a#8], deveof := true }, ?_, rfl, rfl, rfl⟩
  rw [run]
  have e1 : step w c (start c memory) (.type (l ++ [0x0a#8])) = some { start c memory with keys := l ++ [0x0a#8] } := rfl
  rw [e1, Option.bind_some, run]
  have e2 : step w c { start c memory with keys := l ++ [0x0a#8] } (.ready (some (l.length + 1)) none true) = some { start c memory with text := l.take (c.size - 1) ++ [0x0a#8], deveof := true } := by
    unfold step
    simp only [over, start, Bool.or_self, Bool.and_self, Bool.false_eq_true, if_false, if_true]
    unfold inputOf input
    simp only [Bool.false_eq_true, if_false]
    rw [htake, if_neg hne, hdrop, take_plain w c l [0x0a#8] _ hn (by simp)]
    simp only [List.nil_append]
    rw [take, if_pos rfl]
    simp only []
    rw [if_neg hlen, if_neg (by rw [hstrict]; simp), hf]
    rfl
  rw [e2]
  rfl

/-- The hypotheses can be met. -/
example : 65535 ≤ (List.replicate 65535 0x41#8).length ∧ 0x0a#8 ∉ List.replicate 65535 0x41#8 := by
  refine ⟨by rw [List.length_replicate]; exact Nat.le_refl _, fun h => ?_⟩
  have := (List.mem_replicate.mp h).2
  exact absurd this (by decide)

/-! ## C139: frames that arrive are written to the standard output -/

/-- **C139, soundness.** Whatever arrives on the device, and whatever the output does: what has been written to the standard output at a time is the beginning of what a valid frame from the device carries, and all of it as long as
the output has not failed. -/
theorem framertool_sound_partial (w : World) (c : Config) (memory : List Byte) (hsize : 1 ≤ c.size ∧ c.size ≤ 65535) (hm : c.size ≤ memory.length) (events : List Event) (s : State) (h : run w c (start c memory) events = some s)
    (data : List Byte) (hd : data ∈ shown s.log) :
    ∃ skipped wire rest payload seq, arrived events = skipped ++ wire ++ rest ∧ IsFrame (wire.filter notFlow) payload seq ∧ payload ≠ [] ∧ payload.length ≤ c.size ∧ data <+: payload ∧ (s.outeof = false → data = payload) := by
  have hv := (run_inv w c memory hsize events [] [] _ s h (start_inp c memory) (start_dev c memory)).2
  rw [List.nil_append] at hv
  have key : ∀ g, Completed (init memory c.size) g (arrived events) → data <+: g.buffer.take g.length → (s.outeof = false → data = g.buffer.take g.length) →
      ∃ skipped wire rest payload seq, arrived events = skipped ++ wire ++ rest ∧ IsFrame (wire.filter notFlow) payload seq ∧ payload ≠ [] ∧ payload.length ≤ c.size ∧ data <+: payload ∧ (s.outeof = false → data = payload) := by
    intro g hg hp he
    obtain ⟨skipped, wire, rest, v1, v2, v3, v4, v5, v6, v7⟩ := completed_valid memory c.size hm g _ hg
    refine ⟨skipped, wire, rest, _, _, v1, v2, ?_, by omega, hp, he⟩
    intro hz
    rw [hz] at v3
    simp only [List.length_nil] at v3
    omega
  cases ho : s.outeof with
  | true =>
    obtain ⟨g, hg, hp⟩ := hv.sound data hd
    have := key g hg hp (by rw [ho]; intro h; cases h)
    rwa [ho] at this
  | false =>
    obtain ⟨x, processed, extra, done, h1, h2, h3, _⟩ := hv.exact
    rw [h3 ho, List.mem_map] at hd
    obtain ⟨g, hg, rfl⟩ := hd
    have hc := (digest_history (init memory c.size) processed [] _ x done rfl (by simp [Stuck, init]) h1).2 g hg
    have := key g (hc.mono (by rw [h2]; simp [octets])) (List.prefix_refl _) (fun _ => rfl)
    rwa [ho] at this

/-- **C139, completeness.** If valid frames that fit arrive one after the other, in whatever pieces, between whatever is typed, then what the first of them carry has been written to the standard output, in their order and each
once, as long as the output has not failed; and all of them if nothing is left in the buffer of the stream and on the line. -/
theorem framertool_complete_partial (w : World) (c : Config) (memory : List Byte) (hsize : 1 ≤ c.size ∧ c.size ≤ 65535) (hm : c.size ≤ memory.length) (events : List Event) (s : State) (h : run w c (start c memory) events = some s)
    (hout : s.outeof = false) (frames : List (List Byte × List Byte × BitVec 16)) (hv : ∀ x ∈ frames, IsFrame x.1 x.2.1 x.2.2 ∧ x.2.1 ≠ [] ∧ x.2.1.length ≤ c.size) (ha : arrived events = (frames.map (·.1)).flatten) :
    ∃ k, k ≤ frames.length ∧ shown s.log = (frames.take k).map (·.2.1) ∧ (s.deveof = false → s.buffer = [] → s.line = [] → k = frames.length) := by
  have hi := (run_inv w c memory hsize events [] [] _ s h (start_inp c memory) (start_dev c memory)).2
  rw [List.nil_append, ha] at hi
  obtain ⟨x, processed, extra, done, h1, h2, h3, h4⟩ := hi.exact
  obtain ⟨f', done', d1, d2⟩ := digest_payloads frames (init memory c.size) hm rfl hv
  have hlen : done'.length = frames.length := by
    have := congrArg List.length d2
    rwa [List.length_map, List.length_map] at this
  obtain ⟨more, hmore⟩ : ∃ more, done' = done ++ more := by
    rw [h2, digest_append, h1] at d1
    simp only [Option.bind_some, Option.map_eq_some_iff, Prod.mk.injEq] at d1
    obtain ⟨x, _, _, hx⟩ := d1
    exact ⟨x.2, hx.symm⟩
  refine ⟨done.length, ?_, ?_, ?_⟩
  · rw [← hlen, hmore, List.length_append]; omega
  · rw [h3 hout, List.map_take, ← d2, hmore, ← List.map_take, List.take_left]
  · intro hd hb hl
    obtain ⟨e1, _⟩ := h4 hd hout
    rw [hb, hl, List.append_nil] at e1
    rw [e1, List.append_nil] at h2
    rw [h2, h1] at d1
    cases d1
    exact hlen

/-- Two frames, in pieces, with a line in between. -/
example : (run willing eight (start eight stars) [.arrive (frameA.take 5), .ready none (some 99) true, .type [0x41, 0x0a], .arrive (frameA.drop 5), .ready (some 99) (some 99) false, .arrive frameB, .ready none (some 99) true]).map (·.log) =
    some [.printed [0x41, 0x0a], .wrote frameA, .printed [0x42, 0x43, 0x0a]] := by
  decide +kernel

/-- **C138 and C139, from end to end.** The device takes to the far end what the near end has written: when the near end has not failed and nothing is left on the way, and the lines fit in the buffers, what is on the standard output of
the far end is what has been typed at the near end, except for what is typed after the last newline and what has not been read yet. -/
theorem framertool_through_partial (w w' : World) (c c' : Config) (memory memory' : List Byte) (hm : c'.size ≤ memory'.length) (h1 : 1 ≤ c.size) (hsize : c.size ≤ c'.size) (hsize' : c'.size ≤ 65535)
    (events events' : List Event) (s s' : State) (h : run w c (start c memory) events = some s) (h' : run w' c' (start c' memory') events' = some s') (ha : arrived events' = (written s.log).flatten)
    (hd : s.deveof = false) (hd' : s'.deveof = false) (ho' : s'.outeof = false) (hb' : s'.buffer = []) (hl' : s'.line = []) :
    ∃ lines part, Lines ((lines.map (· ++ [0x0a#8])).flatten ++ part) lines part ∧ typed events = (lines.map (· ++ [0x0a#8])).flatten ++ part ++ s.keys ∧ shown s'.log = lines.map (message c.size) ∧
      ((∀ l ∈ lines, l.length < c.size) → (shown s'.log).flatten ++ part ++ s.keys = typed events) := by
  have hi := (run_inv w c memory ⟨h1, by omega⟩ events [] [] _ s h (start_inp c memory) (start_dev c memory)).1
  rw [List.nil_append] at hi
  obtain ⟨ls, cur, rest, fr, tail, a1, a2, a3, a4, a5, a6, a7, a8⟩ := hi
  obtain ⟨b1, b2, b3, _⟩ := a7 hd
  rw [b1, List.append_nil] at a3
  obtain ⟨k, k1, k2, k3⟩ := framertool_complete_partial w' c' memory' ⟨by omega, hsize'⟩ hm events' s' h' ho' fr (fun x hx => ⟨(a5 x hx).1, (a5 x hx).2.1, by have := (a5 x hx).2.2; omega⟩) (by rw [ha, a3])
  rw [k3 hd' hb' hl', List.take_length, a4] at k2
  refine ⟨ls, cur, ⟨rfl, a2, b3⟩, by rw [a1, b2, List.append_assoc], k2, ?_⟩
  intro hfit
  have : ls.map (message c.size) = ls.map (· ++ [0x0a#8]) := by
    apply List.map_congr_left
    intro l hl
    unfold message
    rw [List.take_of_length_le (by have := hfit l hl; omega)]
  rw [k2, this, a1, b2, List.append_assoc]

/-- The hypotheses can be met: two lines, of which the second arrives after the first has been taken. -/
example : (run willing eight (start eight stars) [.type [0x41, 0x0a, 0x42, 0x43, 0x0a, 0x44], .ready (some 99) none true]).map (fun s => ((written s.log).flatten, s.deveof, s.keys)) = some (frameA ++ frameB, false, []) ∧
    (run willing eight (start eight stars) [.arrive (frameA ++ frameB), .ready none (some 14) true, .idle, .ready none (some 99) true]).map (fun s => (shown s.log, s.deveof, s.outeof, s.buffer, s.line)) =
      some ([[0x41, 0x0a], [0x42, 0x43, 0x0a]], false, false, [], []) := by
  decide +kernel

/-- **C139 is false** as it should be: when the output has failed the framer is not reset, so that each octet that arrives from then on makes the tool write the same frame again, whatever it is. -/
theorem framertool_repeat_counterexample (octets : List Byte) :
    (run ⟨fun _ _ => none, fun _ _ => some 1⟩ eight (start eight stars) ([.arrive frameA, .ready none (some 99) true] ++ octets.flatMap fun o => [.arrive [o], .ready none (some 1) true])).map (fun s => (shown s.log, over s)) =
      some (List.replicate (octets.length + 1) [0x41#8], false) := by
  have gen : ∀ (octets : List Byte) (s : State) (n : Nat), s.framer.state = .complete → s.framer.length = 2 → s.framer.buffer.take 2 = [0x41#8, 0x0a#8] → 2 ≤ s.framer.buffer.length → s.buffer = [] → s.line = [] →
      s.deveof = false → s.inpeof = false → s.broken = false → shown s.log = List.replicate n [0x41#8] →
      (run ⟨fun _ _ => none, fun _ _ => some 1⟩ eight s (octets.flatMap fun o => [.arrive [o], .ready none (some 1) true])).map (fun s => (shown s.log, over s)) = some (List.replicate (n + octets.length) [0x41#8], false) := by
    intro octets
    induction octets with
    | nil =>
      intro s n _ _ _ _ _ _ h7 h8 h9 h10
      simp [run, h10, over, h7, h8, h9]
    | cons o octets ih =>
      intro s n h1 h2 h3 h4 h5 h6 h7 h8 h9 h10
      obtain ⟨g, p1, _, p3, p4, p5, _⟩ := pull_complete s.framer h1 (by rw [h2]; decide) o []
      have e1 : step ⟨fun _ _ => none, fun _ _ => some 1⟩ eight s (.arrive [o]) = some { s with line := [o] } := by
        unfold step; simp [h6]
      have e2 : step ⟨fun _ _ => none, fun _ _ => some 1⟩ eight { s with line := [o] } (.ready none (some 1) true) =
          some { s with line := [], buffer := [], framer := g, reading := true, outeof := true, log := s.log ++ [.printed [0x41#8]] } := by
        unfold step
        simp only [over, h7, h8, h9, Bool.or_self, Bool.false_and, Bool.false_eq_true, if_false, if_true]
        unfold inputOf deviceOf device reader
        simp only [Option.bind_some, h7, h5, Bool.false_eq_true, if_false, if_true, List.take_succ_cons, List.take_zero, List.drop_succ_cons, List.drop_zero]
        rw [if_neg (by simp), p1]
        simp only [if_true]
        rw [if_neg (by rw [p4, p5, h2]; omega), p4, p5, h2, h3]
        simp [h8, h9]
      rw [List.flatMap_cons, List.cons_append, List.cons_append, List.nil_append, run, e1, Option.bind_some, run, e2, Option.bind_some]
      have := ih { s with line := [], buffer := [], framer := g, reading := true, outeof := true, log := s.log ++ [.printed [0x41#8]] } (n + 1) p3 (by rw [← h2]; exact p4) (by show g.buffer.take 2 = _; rw [p5]; exact h3)
        (by show 2 ≤ g.buffer.length; rw [p5]; exact h4) rfl rfl h7 h8 h9 (by rw [shown_append, h10, List.replicate_succ']; rfl)
      rw [this, List.length_cons]
      congr 3
      omega
  rw [run_append]
  have h0 : (run ⟨fun _ _ => none, fun _ _ => some 1⟩ eight (start eight stars) [.arrive frameA, .ready none (some 99) true]).map (fun s => (decide (s.framer.state = .complete), s.framer.length, s.framer.buffer.take 2, decide (2 ≤ s.framer.buffer.length), s.buffer)) =
      some (true, 2, [0x41#8, 0x0a#8], true, []) := by decide +kernel
  have h0' : (run ⟨fun _ _ => none, fun _ _ => some 1⟩ eight (start eight stars) [.arrive frameA, .ready none (some 99) true]).map (fun s => (s.line, s.deveof, s.inpeof, s.broken, shown s.log)) =
      some ([], false, false, false, [[0x41#8]]) := by decide +kernel
  cases hr : run ⟨fun _ _ => none, fun _ _ => some 1⟩ eight (start eight stars) [.arrive frameA, .ready none (some 99) true] with
  | none => rw [hr] at h0; cases h0
  | some x =>
    rw [hr] at h0 h0'
    simp only [Option.map_some, Option.some.injEq, Prod.mk.injEq, decide_eq_true_eq] at h0 h0'
    obtain ⟨a1, a2, a3, a4, a5⟩ := h0
    obtain ⟨a6, a7, a8, a9, a10⟩ := h0'
    rw [Option.bind_some, gen octets x 1 a1 a2 a3 a4 a5 a6 a7 a8 a9 a10, Nat.add_comm]

/-- Two frames that arrive together: the second stays in the buffer of the stream, where the multiplexer does not see it, however long one waits. -/
theorem framertool_stall_counterexample (n : Nat) :
    (run willing eight (start eight stars) ([.arrive (frameA ++ frameB), .ready none (some 99) true] ++ List.replicate n .idle)).map (fun s => (s.log, s.line, s.buffer)) = some ([.printed [0x41, 0x0a]], [], frameB) := by
  have hidle : ∀ (n : Nat) (s : State), run willing eight s (List.replicate n .idle) = some s := by
    intro n
    induction n with
    | zero => intro s; rfl
    | succ n ih => intro s; rw [List.replicate_succ, run]; exact ih s
  have h0 : (run willing eight (start eight stars) [.arrive (frameA ++ frameB), .ready none (some 99) true]).map (fun s => (s.log, s.line, s.buffer)) = some ([.printed [0x41, 0x0a]], [], frameB) := by decide +kernel
  rw [run_append]
  cases hr : run willing eight (start eight stars) [.arrive (frameA ++ frameB), .ready none (some 99) true] with
  | none => rw [hr] at h0; cases h0
  | some x => rw [hr] at h0; rw [Option.bind_some, hidle]; exact h0

/-! ## C140: the tool is defined, and what ends it -/

/-- **C140, definedness.** If the two directions of the stream do not disturb each other, the behaviour is defined, whatever is typed and whatever arrives, and whatever the device and the output do. -/
theorem framertool_defined_partial (w : World) (c : Config) (memory : List Byte) (hsize : 1 ≤ c.size ∧ c.size ≤ 65535) (hm : c.size ≤ memory.length) (hstrict : c.strict = false) (events : List Event) :
    ∃ s, run w c (start c memory) events = some s :=
  run_defined w c memory hsize hm hstrict events [] [] _ (start_inp c memory) (start_dev c memory)

/-- **C140, the end.** The loop ends only if the tool is told to terminate, or the device ends or fails, or the standard input has ended and the standard output has failed: nothing that is typed or that arrives ends it. -/
theorem framertool_stops_partial (w : World) (c : Config) (memory : List Byte) (hsize : 1 ≤ c.size ∧ c.size ≤ 65535) (events : List Event) (s : State) (h : run w c (start c memory) events = some s) (ho : over s = true) :
    Event.terminate ∈ events ∨
    (∃ before i n first after x, events = before ++ Event.ready i (some n) first :: after ∧ run w c (start c memory) before = some x ∧ x.buffer = [] ∧ (x.line = [] ∨ n = 0)) ∨
    (∃ log octets k, w.put log octets = some k) ∨
    ((∃ before n d first after x, events = before ++ Event.ready (some n) d first :: after ∧ run w c (start c memory) before = some x ∧ (x.keys = [] ∨ n = 0)) ∧ ∃ log octets k, w.out log octets = some k) := by
  have hw := run_why w c memory hsize events [] _ s rfl (start_why w c memory) h
  rw [List.nil_append] at hw
  unfold over at ho
  rw [Bool.or_eq_true, Bool.or_eq_true, Bool.and_eq_true] at ho
  rcases ho with (ho | ho) | ⟨ho, ho'⟩
  · exact Or.inl (hw.broken ho)
  · rcases hw.deveof ho with hx | hx
    · exact Or.inr (Or.inl hx)
    · exact Or.inr (Or.inr (Or.inl hx))
  · exact Or.inr (Or.inr (Or.inr ⟨hw.inpeof ho, hw.outeof ho'⟩))

/-- Each of the reasons does end it. -/
example : (run willing eight (start eight stars) [.terminate]).map over = some true ∧ (run willing eight (start eight stars) [.ready none (some 1) true]).map over = some true ∧
    (run ⟨fun _ _ => some 0, fun _ _ => none⟩ eight (start eight stars) [.type [0x0a], .ready (some 1) none true]).map over = some true ∧
    (run ⟨fun _ _ => none, fun _ _ => some 0⟩ eight (start eight stars) [.arrive frameA, .ready (some 1) (some 99) true]).map over = some true := by
  decide +kernel

/-- Neither the end of the standard input nor a failure of the standard output alone does. -/
example : (run willing eight (start eight stars) [.ready (some 1) none true]).map over = some false ∧
    (run ⟨fun _ _ => none, fun _ _ => some 0⟩ eight (start eight stars) [.arrive frameA, .ready none (some 99) true]).map over = some false := by
  decide +kernel

/-- **C140 is false** by the standard of the language: there is one stream for both directions, and a line that is typed after octets have arrived is output that follows input. -/
theorem framertool_shared_counterexample :
    (run willing ⟨8, true⟩ (start ⟨8, true⟩ stars) [.arrive frameA, .ready none (some 99) true, .type [0x42, 0x0a], .ready (some 99) none true]).isNone = true ∧
    (run willing ⟨8, true⟩ (start ⟨8, true⟩ stars) [.arrive frameA, .ready none (some 99) true]).isNone = false := by
  decide +kernel

end Diminuto.Framertool
