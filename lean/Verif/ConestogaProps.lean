import Verif.ConestogaLemmas3

/-!
# Properties of the tool that passes datagrams over a serial line

C135 to C137, of `Diminuto/bin/conestoga.c`.
-/

namespace Diminuto.Conestoga

open Framer

/-! ## C135: datagrams that are received are written as frames -/

/-- **C135.** Every datagram, cut to the size of the buffer, is written to the line as one valid frame, in the order of their arrival, with consecutive numbers from zero. -/
theorem conestoga_frames (w : World) (c : Config) (memory : List Byte) (hsize : c.size ≤ 65535) (events : List Event) (s : State) (h : run w c (start c memory) events = .running s) :
    received s.log = (packets events).map (fun x => (x.1, x.2.take c.size)) ∧ (written s.log).length = (received s.log).length ∧
    ∀ i (h1 : i < (written s.log).length) (h2 : i < (received s.log).length), IsFrame (written s.log)[i] (received s.log)[i].2 (BitVec.ofNat 16 i) ∧ (received s.log)[i].2 ≠ [] := by
  have hi := run_inv w c memory hsize events [] _ s (start_inv w c memory) h
  obtain ⟨_, ⟨fr, a1, a2, a3, a4⟩, _⟩ := hi
  have hl1 : (written s.log).length = fr.length := by rw [a1, List.length_map]
  have hl2 : (received s.log).length = fr.length := by
    have := congrArg List.length a2
    rwa [List.length_map, List.length_map] at this
  refine ⟨by rw [run_received w c events _ s h]; rfl, by rw [hl1, hl2], ?_⟩
  intro i h1 h2
  have hi : i < fr.length := by omega
  have e1 : (written s.log)[i] = fr[i].1 := by simp [a1]
  have e2 : (received s.log)[i].2 = fr[i].2.1 := by
    have : ((received s.log).map (·.2))[i]'(by rw [List.length_map]; exact h2) = (fr.map (·.2.1))[i]'(by rw [List.length_map]; exact hi) := by simp only [a2]
    simpa using this
  have e3 : fr[i].2.2 = BitVec.ofNat 16 i := by
    have : (fr.map (·.2.2))[i]'(by rw [List.length_map]; exact hi) = ((List.range fr.length).map (BitVec.ofNat 16))[i]'(by simpa using hi) := by simp only [a4]
    simpa using this
  obtain ⟨b1, b2, _⟩ := a3 fr[i] (List.getElem_mem hi)
  rw [e1, e2, ← e3]
  exact ⟨b1, b2⟩

/-- Two datagrams from different senders. -/
example : seen (run willing ⟨.server, ⟨0, 0⟩, 2, false⟩ (start ⟨.server, ⟨0, 0⟩, 2, false⟩ [0, 0]) [.packet ⟨1, 5⟩ [0x41#8], .idle, .packet ⟨2, 6⟩ [0x7e#8, 0x42#8, 0x43#8]]) =
    some [.received ⟨1, 5⟩ [0x41#8], .wrote [0x7e, 0x00, 0x01, 0x00, 0x00, 0x01, 0x03, 0x41, 37, 46, 45, 0x0a],
      .received ⟨2, 6⟩ [0x7e#8, 0x42#8], .wrote [0x7e, 0x00, 0x02, 0x00, 0x01, 0x03, 0x07, 0x7d, 0x5e, 0x42, 32, 79, 34, 0x0a]] := by
  decide +kernel

/-! ## C136: frames that arrive are sent as datagrams -/

/-- **C136, soundness.** Whatever arrives on the line, and however the run has ended: a datagram that has been sent begins with what a valid frame on the line carries; and it is longer than that by eleven octets or more, which are
not from the frame. -/
theorem conestoga_sound_partial (w : World) (c : Config) (memory : List Byte) (hm : c.size ≤ memory.length) (hsize : c.size ≤ 65535) (events : List Event) (s : State)
    (h : run w c (start c memory) events = .running s ∨ run w c (start c memory) events = .stopped s) (q : Peer) (d : List Byte) (hd : (q, d) ∈ sent s.log) :
    ∃ skipped wire rest payload seq, arrived events = skipped ++ wire ++ rest ∧ IsFrame (wire.filter notFlow) payload seq ∧ payload ≠ [] ∧ payload.length ≤ c.size ∧ payload <+: d ∧
      payload.length + 11 ≤ d.length ∧ d.length ≤ memory.length := by
  obtain ⟨⟨f, processed, done, h1, ⟨r, hr⟩, h3⟩, _⟩ := run_sound w c memory hm hsize events s h
  obtain ⟨g, hg, he, hle⟩ := h3 (q, d) hd
  have hcomp := (digest_history (init memory c.size) processed [] _ f done rfl (by simp [Stuck, init]) h1).2 g hg
  obtain ⟨skipped, wire, rest, v1, v2, v3, v4, v5, v6, v7⟩ := completed_valid memory c.size hm g _ hcomp
  have hge := v2.length_ge
  have hdl : d.length = g.total := by
    have : d = g.buffer.take g.total := he
    rw [this, List.length_take]
    omega
  refine ⟨skipped, wire, rest ++ r, _, _, ?_, v2, ?_, by omega, ?_, by omega, by omega⟩
  · rw [← hr]
    have : processed = skipped ++ wire ++ rest := by simpa [octets] using v1
    rw [this]
    simp
  · intro hz
    rw [hz] at v3
    simp only [List.length_nil] at v3
    omega
  · have : d = g.buffer.take g.total := he
    rw [this]
    exact List.take_prefix_take_left (by omega)

/-- **C136, destinations.** However the run has ended: a datagram is sent by a client to the service, or to the sender of the last datagram that was received before it. -/
theorem conestoga_destinations_partial (w : World) (c : Config) (memory : List Byte) (hm : c.size ≤ memory.length) (hsize : c.size ≤ 65535) (events : List Event) (s : State)
    (h : run w c (start c memory) events = .running s ∨ run w c (start c memory) events = .stopped s) (before after : List Entry) (q : Peer) (d : List Byte) (hd : s.log = before ++ .sent q d :: after) :
    (c.role = .client ∧ q = c.service) ∨ last before = some q :=
  (run_sound w c memory hm hsize events s h).peers before q d after hd

/-- **C136, completeness.** If valid frames that fit arrive one after the other, in whatever pieces, between whatever datagrams, then the first of them have been sent, in their order, each once by a server and twice by a client; and
all of them if nothing is left in the buffer of the stream and on the line. -/
theorem conestoga_complete_partial (w : World) (c : Config) (memory : List Byte) (hm : c.size ≤ memory.length) (hsize : c.size ≤ 65535) (hserve : Serves w c) (events : List Event) (s : State)
    (h : run w c (start c memory) events = .running s) (frames : List (List Byte × List Byte × BitVec 16)) (hv : ∀ x ∈ frames, IsFrame x.1 x.2.1 x.2.2 ∧ x.2.1 ≠ [] ∧ x.2.1.length ≤ c.size)
    (ha : arrived events = (frames.map (·.1)).flatten) :
    ∃ l : List (Peer × List Byte), sent s.log = l.flatMap (copies c) ∧ l.length ≤ frames.length ∧ (s.buffer = [] → s.line = [] → l.length = frames.length) ∧
      ∀ i (h1 : i < l.length) (h2 : i < frames.length), frames[i].2.1 <+: l[i].2 ∧ l[i].2.length = frames[i].1.length := by
  have hi := run_inv w c memory hsize events [] _ s (start_inv w c memory) h
  obtain ⟨⟨f, n, processed, done, l, h1, h2, h3, h4, h5, h6, h7⟩, _⟩ := hi
  rw [List.nil_append, ha] at h3
  obtain ⟨f', done', d1, d2, d3⟩ := digest_frames frames (init memory c.size) hm rfl hv
  have hl : l.length = done.length := by
    have := congrArg List.length h5
    rwa [List.length_map, List.length_map] at this
  obtain ⟨more, hmore⟩ : ∃ more, done' = done ++ more := by
    rw [h3, List.append_assoc, digest_append, h2] at d1
    simp only [Option.bind_some, Option.map_eq_some_iff, Prod.mk.injEq] at d1
    obtain ⟨x, _, _, hx⟩ := d1
    exact ⟨x.2, hx.symm⟩
  refine ⟨l, h4.2 hserve, ?_, ?_, ?_⟩
  · rw [hl, ← d2, hmore, List.length_append]; omega
  · intro hb hl'
    rw [hb, hl', List.append_nil, List.append_nil] at h3
    rw [← h3, d1] at h2
    cases h2
    omega
  · intro i l1 l2
    have lt : i < done.length := by omega
    have ed : done'[i]'(by omega) = done[i] := by simp only [hmore]; exact List.getElem_append_left lt
    obtain ⟨c1, c2, c3⟩ := d3 i (by omega) l2
    rw [ed] at c1 c2 c3
    have el : l[i].2 = done[i].buffer.take done[i].total := by
      have : (l.map (·.2))[i]'(by rw [List.length_map]; exact l1) = (done.map (fun g => g.buffer.take g.total))[i]'(by rw [List.length_map]; exact lt) := by simp only [h5]
      simpa using this
    have hle := h6 done[i] (List.getElem_mem lt)
    have hge := (hv frames[i] (List.getElem_mem l2)).1.length_ge
    refine ⟨?_, ?_⟩
    · rw [el, ← c2]
      exact List.take_prefix_take_left (by omega)
    · rw [el, List.length_take, ← c1]
      omega

/-- **C135 and C136, from end to end.** The line takes to the far end what the near end has written: what the far end has sent are the datagrams that the near end has received, in their order, except for what is added at their ends. -/
theorem conestoga_through_partial (w w' : World) (c c' : Config) (memory memory' : List Byte) (hm : c'.size ≤ memory'.length) (hsize : c.size ≤ c'.size) (hsize' : c'.size ≤ 65535) (hserve : Serves w' c')
    (events events' : List Event) (s s' : State) (h : run w c (start c memory) events = .running s) (h' : run w' c' (start c' memory') events' = .running s')
    (ha : arrived events' = (written s.log).flatten) :
    ∃ l : List (Peer × List Byte), sent s'.log = l.flatMap (copies c') ∧ l.length ≤ (received s.log).length ∧ (s'.buffer = [] → s'.line = [] → l.length = (received s.log).length) ∧
      ∀ i (h1 : i < l.length) (h2 : i < (received s.log).length), (received s.log)[i].2 <+: l[i].2 := by
  have hi := run_inv w c memory (by omega) events [] _ s (start_inv w c memory) h
  obtain ⟨_, ⟨fr, a1, a2, a3, _⟩, _⟩ := hi
  have hl2 : (received s.log).length = fr.length := by
    have := congrArg List.length a2
    rwa [List.length_map, List.length_map] at this
  obtain ⟨l, b1, b2, b3, b4⟩ := conestoga_complete_partial w' c' memory' hm hsize' hserve events' s' h' fr
    (fun x hx => ⟨(a3 x hx).1, (a3 x hx).2.1, by have := (a3 x hx).2.2; omega⟩) (by rw [ha, a1])
  refine ⟨l, b1, by omega, fun x y => by rw [b3 x y, hl2], ?_⟩
  intro i h1 h2
  have hi : i < fr.length := by omega
  have e2 : (received s.log)[i].2 = fr[i].2.1 := by
    have : ((received s.log).map (·.2))[i]'(by rw [List.length_map]; exact h2) = (fr.map (·.2.1))[i]'(by rw [List.length_map]; exact hi) := by simp only [a2]
    simpa using this
  rw [e2]
  exact (b4 i h1 hi).1

/-- A frame that carries an `A`, and the next one, with a `C`. -/
def frameA : List Byte := [0x7e, 0x00, 0x01, 0x00, 0x00, 0x01, 0x03, 0x41, 37, 46, 45, 0x0a]
/-- See `frameA`. -/
def frameC : List Byte := [0x7e, 0x00, 0x01, 0x00, 0x01, 0x02, 0x04, 0x43, 39, 34, 63, 0x0a]

/-- A server with buffers of sixteen octets, that have stars. -/
def serverC : Config := ⟨.server, ⟨0, 0⟩, 16, false⟩
/-- A client with buffers of sixteen octets. -/
def clientC : Config := ⟨.client, ⟨9, 7⟩, 16, false⟩
/-- The memory of the buffer. -/
def stars : List Byte := List.replicate 16 0x2a#8

/-- Frames in pieces, and octets that are not in frames. -/
example : (seen (run willing serverC (start serverC stars)
    [.packet ⟨1, 5⟩ [0x42#8], .arrive (0x55#8 :: frameA.take 5), .serial 3, .idle, .serial 9, .arrive (frameA.drop 5 ++ frameC), .serial 10, .packet ⟨2, 6⟩ [0x42#8], .serial 99, .serial 99])).map sent =
    some [(⟨1, 5⟩, [0x41#8, 0#8] ++ List.replicate 10 0x2a#8), (⟨2, 6⟩, [0x43#8, 0#8] ++ List.replicate 10 0x2a#8)] := by
  decide +kernel

/-- The hypotheses can be met. -/
example : Serves willing serverC ∧ serverC.size ≤ stars.length ∧ serverC.size ≤ 65535 := by
  refine ⟨fun h => ?_, ?_, ?_⟩
  · cases h
  · decide
  · decide

/-- **C136 is false** as it should be: a datagram of one octet is a datagram of twelve at the far end, because `received` is the number of octets of the frame on the line, and not of what it carries.  The rest is a NUL and what
the memory had. -/
theorem conestoga_length_counterexample :
    (seen (run willing clientC (start clientC stars) [.packet ⟨1, 5⟩ [0x41#8]])).map written = some [frameA] ∧
    (seen (run willing serverC (start serverC stars) [.packet ⟨1, 5⟩ [0x42#8], .arrive frameA, .serial 99])).map sent = some [(⟨1, 5⟩, [0x41#8, 0#8] ++ List.replicate 10 0x2a#8)] := by
  decide +kernel

/-- A client also sends to the sender of the last datagram what it sends to the service: the `break` is missing. -/
theorem conestoga_client_twice_counterexample :
    (seen (run willing clientC (start clientC stars) [.packet ⟨1, 5⟩ [0x42#8], .arrive frameA, .serial 99])).map (fun l => (sent l).map (·.1)) = some [⟨9, 7⟩, ⟨1, 5⟩] := by
  decide +kernel

/-- **C136: memory beyond the buffer.** A frame that is valid, and carries no more than fits in the buffer, but is longer on the line than the buffer, makes the tool read beyond its end. -/
theorem conestoga_overrun_counterexample (w : World) (c : Config) (memory : List Byte) (hm : memory.length = c.size) (wire payload : List Byte) (seq : BitVec 16) (hf : IsFrame wire payload seq) (hne : payload ≠ [])
    (hp : payload.length ≤ c.size) (hl : c.size < wire.length) (more : List Event) : run w c (start c memory) (.arrive wire :: .serial wire.length :: more) = .undefined := by
  obtain ⟨g, d1, _, _, _, _, d6, _, d8, _⟩ := digest_frame (init memory c.size) (by show c.size ≤ memory.length; omega) rfl wire payload seq hf hp hne
  have hw : wire ≠ [] := by intro h; rw [h] at hl; simp at hl
  have key : step w c { start c memory with line := wire } (.serial wire.length) = .undefined := by
    unfold step
    simp only [start]
    unfold reader
    simp only [if_pos, List.take_length, List.drop_length]
    rw [if_neg hw]
    rcases hp : pull (init memory c.size) wire with _ | ⟨x, t, rest⟩
    · rfl
    · cases t with
      | false =>
        obtain ⟨_, hd⟩ := (pull_digest _ wire).2.1 x rest hp
        rw [d1] at hd
        cases hd
      | true =>
        obtain ⟨taken, hr, _, hd⟩ := (pull_digest _ wire).1 x rest hp
        rw [hr, digest_append, hd] at d1
        simp only [Option.bind_some, Option.map_eq_some_iff, Prod.mk.injEq] at d1
        obtain ⟨y, _, _, hy⟩ := d1
        have hx : x = g := (List.cons.inj hy).1
        subst hx
        simp only [if_pos]
        unfold forward
        have : x.buffer.length = memory.length := d8
        rw [if_pos (by show x.total > x.buffer.length; omega)]
  have e1 : step w c (start c memory) (.arrive wire) = .running { start c memory with line := wire } := rfl
  rw [run, e1]
  simp only []
  rw [run, key]

/-- The hypotheses can be met: one octet with a buffer of eight, and the frame has twelve. -/
example : isUndefined (run willing { serverC with size := 8 } (start { serverC with size := 8 } (List.replicate 8 0#8)) [.arrive frameA, .serial 12]) = true := by
  decide +kernel

/-- With one stream for both directions, a datagram after octets from the line is output that follows input. -/
theorem conestoga_shared_counterexample :
    isUndefined (run willing { serverC with shared := true } (start { serverC with shared := true } stars) [.packet ⟨1, 5⟩ [0x42#8], .arrive frameA, .serial 99, .packet ⟨1, 5⟩ [0x42#8]]) = true ∧
    isUndefined (run willing { serverC with shared := true } (start { serverC with shared := true } stars) [.packet ⟨1, 5⟩ [0x42#8], .arrive frameA, .serial 99]) = false := by
  decide +kernel

/-- Two frames that arrive together: the second stays in the buffer of the stream, where the multiplexer does not see it, however long one waits. -/
theorem conestoga_stall_counterexample (n : Nat) :
    (seen (run willing serverC (start serverC stars) ([.packet ⟨1, 5⟩ [0x42#8], .arrive (frameA ++ frameC), .serial 99] ++ List.replicate n .idle))).map (fun l => (sent l).length) = some 1 := by
  have hidle : ∀ (n : Nat) (s : State), run willing serverC s (List.replicate n .idle) = .running s := by
    intro n
    induction n with
    | zero => intro s; rfl
    | succ n ih => intro s; rw [List.replicate_succ, run]; exact ih s
  have happ : ∀ (a b : List Event) (s : State), run willing serverC s (a ++ b) = match run willing serverC s a with | .running x => run willing serverC x b | o => o := by
    intro a b
    induction a with
    | nil => intro s; rfl
    | cons e a ih =>
      intro s
      rw [List.cons_append, run, run]
      cases step willing serverC s e with
      | running x => exact ih x
      | stopped x => rfl
      | undefined => rfl
  have h0 : (seen (run willing serverC (start serverC stars) [.packet ⟨1, 5⟩ [0x42#8], .arrive (frameA ++ frameC), .serial 99])).map (fun l => (sent l).length) = some 1 := by decide +kernel
  rw [happ]
  cases hr : run willing serverC (start serverC stars) [.packet ⟨1, 5⟩ [0x42#8], .arrive (frameA ++ frameC), .serial 99] with
  | running x => rw [hr] at h0; simp only []; rw [hidle]; exact h0
  | stopped x => rw [hr] at h0; cases h0
  | undefined => rw [hr] at h0; cases h0

/-! ## C137: what stops the tool -/

/-- **C137.** The run stops with an event for one of the reasons that are listed in `Reason`; what has been seen before it stays. -/
theorem conestoga_stops_partial (w : World) (c : Config) (memory : List Byte) (hm : c.size ≤ memory.length) (hsize : c.size ≤ 65535) (events : List Event) (s : State) (h : run w c (start c memory) events = .stopped s) :
    ∃ before e after x, events = before ++ e :: after ∧ run w c (start c memory) before = .running x ∧ Reason w c (arrived before) x e s := by
  obtain ⟨a, e, b, x, h1, h2, h3⟩ := run_stopped w c events _ s h
  have hi := run_inv w c memory hsize a [] _ x (start_inv w c memory) h2
  rw [List.nil_append] at hi
  exact ⟨a, e, b, x, h1, h2, (step_stopped w c memory _ hm hsize x s e hi h3).2⟩

/-- The end of the line stops it. -/
example : seenStopped (run willing serverC (start serverC stars) [.packet ⟨1, 5⟩ [0x42#8], .serial 99, .packet ⟨1, 5⟩ [0x42#8]]) =
    some [.received ⟨1, 5⟩ [0x42#8], .wrote [0x7e, 0x00, 0x01, 0x00, 0x00, 0x01, 0x03, 0x42, 38, 36, 54, 0x0a]] := by
  decide +kernel

/-- **C137 is false** as it should be: anybody who can send an empty datagram to the socket stops the tool. -/
theorem conestoga_empty_counterexample (w : World) (c : Config) (memory : List Byte) (q : Peer) (more : List Event) : run w c (start c memory) (.packet q [] :: more) = .stopped (start c memory) := by
  rw [run]
  have : step w c (start c memory) (.packet q []) = .stopped (start c memory) := by
    unfold step
    simp only [List.take_nil, if_pos]
  rw [this]

/-- The first frame stops a client that has not received a datagram, after it has been sent to the service; and a server. -/
theorem conestoga_first_counterexample :
    (seenStopped (run willing clientC (start clientC stars) [.arrive frameA, .serial 99, .packet ⟨1, 5⟩ [0x42#8]])).map (fun l => (sent l).map (·.1)) = some [⟨9, 7⟩] ∧
    seenStopped (run willing serverC (start serverC stars) [.arrive frameA, .serial 99, .packet ⟨1, 5⟩ [0x42#8]]) = some [] := by
  decide +kernel

end Diminuto.Conestoga
