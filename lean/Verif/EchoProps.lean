import Verif.EchoConsumerLemmas

/-!
# Properties: how the tool for the Internet provides and consumes
-/

namespace Diminuto.Echo

open Diminuto.Fd (Source Sink)
open Diminuto.ShaperTool (content Willing)
open Diminuto.Datagram (Is4 Is6)

/-! ## Providing a stream -/

/-- Everything that comes from a connection is returned to it, in order, and to nobody else; a connection is closed when its input has ended and not before.  The loop does not end, and its behaviour is defined, whatever the clients do. -/
theorem echo_stream (block : BitVec 64) (h0 : 0 < block.toNat) (h63 : block.toNat < 2 ^ 63) (buffer : List Byte) (hb : buffer.length = block.toNat) (rs : List Round) :
    (∀ s, provide block rs ⟨buffer, []⟩ = .running s → Each Echoed (arrived rs) s.clients) ∧ (∀ s, provide block rs ⟨buffer, []⟩ ≠ .exits s) ∧ provide block rs ⟨buffer, []⟩ ≠ .undefined := by
  have h := provide_good block h0 h63 rs [] ⟨buffer, []⟩ ⟨hb, .nil⟩
  refine ⟨fun s hs => ?_, fun s hs => ?_, fun hs => ?_⟩
  · rw [hs] at h
    have h : Each Kept (arrived rs) s.clients := h.kept
    have key : ∀ {l m : List Client}, Each Kept l m → Each Echoed l m := by
      intro l m h
      induction h with
      | nil => exact .nil
      | cons h _ ih => exact .cons h.echoed ih
    exact key h
  · rw [hs] at h; exact h
  · rw [hs] at h; exact h

/-- If no client fails, all of them read what they are sent, and all can be accepted, then the provider does not fail. -/
theorem echo_stream_survives_partial (block : BitVec 64) (h0 : 0 < block.toNat) (h63 : block.toNat < 2 ^ 63) (buffer : List Byte) (hb : buffer.length = block.toNat) (rs : List Round)
    (hp : ∀ c ∈ arrived rs, Polite c) (ha : Accepts rs) : provide block rs ⟨buffer, []⟩ ≠ .panics := by
  intro hs
  have h := provide_good block h0 h63 rs [] ⟨buffer, []⟩ ⟨hb, .nil⟩
  rw [hs] at h
  rcases h with ⟨a, ha', hn⟩ | hn
  · exact hn (hp a ha')
  · exact hn ⟨ha, fun _ _ _ h => (nomatch h)⟩

/-- A connection that can be read and that is registered gets something back, or is closed for having ended; nothing else happens to any. -/
theorem echo_stream_progress (block : BitVec 64) (h0 : 0 < block.toNat) (h63 : block.toNat < 2 ^ 63) (buffer : List Byte) (hb : buffer.length = block.toNat) (rs : List Round) (s t : State)
    (hs : provide block rs ⟨buffer, []⟩ = .running s) (fd : Nat) (hfd : ∃ c ∈ s.clients, c.opened = true ∧ c.fd = fd) (ht : round block ⟨none, [fd]⟩ s = .running t) :
    ∃ i c d, s.clients[i]? = some c ∧ t.clients = s.clients.set i d ∧ c.opened = true ∧ c.fd = fd ∧ d.fd = fd ∧
      ((d.opened = false ∧ content c.input = [] ∧ d.said = c.said) ∨
       (d.opened = true ∧ ∃ bs, bs ≠ [] ∧ bs.length ≤ block.toNat ∧ content c.input = bs ++ content d.input ∧ d.said = c.said ++ bs)) := by
  have h := provide_good block h0 h63 rs [] ⟨buffer, []⟩ ⟨hb, .nil⟩
  rw [hs] at h
  have hreg : registered s.clients fd = true := by
    obtain ⟨c, hc, ho, hf⟩ := hfd
    unfold registered
    exact List.any_eq_true.mpr ⟨c, hc, by simp [ho, hf]⟩
  have hsrv := serve_one block h0 h63 fd s.buffer h.buffer s.clients
  unfold round accept at ht
  simp only [Outcome.and, List.filter_cons, hreg, List.filter_nil, if_true, serves] at ht
  cases hr : serve block fd s.buffer s.clients with
  | running r =>
    rw [hr] at hsrv ht
    have ht : Outcome.running (State.mk r.1 r.2) = Outcome.running t := ht
    cases ht
    rcases hsrv.2 with ⟨hn, _⟩ | ⟨i, c, d, hi, ho, hf, he, hturn⟩
    · rw [hreg] at hn; exact (nomatch hn)
    · refine ⟨i, c, d, hi, he, ho, hf, hturn.fd.trans hf, ?_⟩
      rcases hturn.says with h1 | ⟨h1, h2⟩
      · exact Or.inl h1
      · exact Or.inr ⟨h1.trans ho, h2⟩
  | exits r => rw [hr] at ht; exact (nomatch ht)
  | panics => rw [hr] at ht; exact (nomatch ht)
  | blocks => rw [hr] at ht; exact (nomatch ht)
  | undefined => rw [hr] at ht; exact (nomatch ht)

/-- Two clients that talk and are answered in turn. -/
def alice : Client := ⟨5, [.data [65, 66, 67], .data [68], .eof], [.room 1, .room 9, .room 9, .room 9], true, false, []⟩
def bob : Client := ⟨6, [.data [97]], [.room 9], true, false, []⟩
def visits : List Round := [⟨some (.client alice true), []⟩, ⟨some (.client bob true), [5]⟩, ⟨none, [6, 5]⟩, ⟨some .again, [5]⟩, ⟨none, [5]⟩]

example : (2#64).toNat = 2 ∧ (∀ c ∈ arrived visits, Polite c) ∧ Accepts visits ∧
    (match provide 2 visits ⟨[0, 0], []⟩ with | .running s => some (s.clients.map fun c => (c.opened, c.said)) | _ => none) = some [(false, [65, 66, 67, 68]), (true, [97])] := by
  refine ⟨rfl, ?_, ⟨?_, ?_, by decide +kernel, by decide +kernel⟩, by decide +kernel⟩
  · intro c hc
    have hc : c ∈ [alice, bob] := hc
    simp only [List.mem_cons, List.not_mem_nil, or_false] at hc
    rcases hc with rfl | rfl
    · refine ⟨by decide, ?_, rfl⟩
      intro e he
      simp only [alice, List.mem_cons, List.not_mem_nil, or_false] at he
      rcases he with rfl | rfl | rfl | rfl
      · exact ⟨0, rfl⟩
      · exact ⟨8, rfl⟩
      · exact ⟨8, rfl⟩
      · exact ⟨8, rfl⟩
    · refine ⟨by decide, ?_, rfl⟩
      intro e he
      simp only [bob, List.mem_cons, List.not_mem_nil, or_false] at he
      exact ⟨8, he⟩
  · intro r hr
    simp only [visits, List.mem_cons, List.not_mem_nil, or_false] at hr
    rcases hr with rfl | rfl | rfl | rfl | rfl <;> decide
  · intro r hr c
    simp only [visits, List.mem_cons, List.not_mem_nil, or_false] at hr
    rcases hr with rfl | rfl | rfl | rfl | rfl <;> simp

example : ∃ s t, provide 2 (visits.take 1) ⟨[0, 0], []⟩ = .running s ∧ (∃ c ∈ s.clients, c.opened = true ∧ c.fd = 5) ∧ round 2 ⟨none, [5]⟩ s = .running t ∧ t.clients.map (·.said) = [[65, 66]] :=
  ⟨⟨[0, 0], [{ alice with opened := true }]⟩, _, by decide +kernel, ⟨{ alice with opened := true }, by decide, by decide⟩, rfl, by decide +kernel⟩

/-- A client whose connection is reset ends the provider for all the others, as does one that goes away before it has been answered, and one that is accepted with a descriptor that `select(2)` does not know. -/
theorem echo_stream_counterexample :
    ¬ (∀ rs, provide 2 rs ⟨[0, 0], []⟩ ≠ .panics) ∧
    provide 2 [⟨some (.client alice true), []⟩, ⟨some (.client { bob with input := [.error] } true), []⟩, ⟨none, [6]⟩] ⟨[0, 0], []⟩ = .panics ∧
    provide 2 [⟨some (.client alice true), []⟩, ⟨some (.client { bob with output := [.error] } true), []⟩, ⟨none, [6]⟩] ⟨[0, 0], []⟩ = .panics ∧
    provide 2 [⟨some (.client alice true), []⟩, ⟨some (.client { bob with fd := 1024 } true), []⟩] ⟨[0, 0], []⟩ = .panics := by
  refine ⟨fun h => h [⟨some .fails, []⟩] (by decide +kernel), by decide +kernel, by decide +kernel, by decide +kernel⟩

/-- A client that sends, but does not read, makes the provider wait in the function that writes, for ever, and nobody else is answered. -/
theorem echo_stream_blocks_counterexample : provide 2 [⟨some (.client alice true), []⟩, ⟨some (.client { bob with output := [] } true), []⟩, ⟨none, [6, 5]⟩] ⟨[0, 0], []⟩ = .blocks := by decide +kernel

/-- With a block of no bytes every connection is closed as soon as something has come, and nothing is returned. -/
theorem echo_block_counterexample (c : Client) (hc : c.closes = true) : turn 0 [] c = .running ([], { c with opened := false }) := by
  have h : Fd.read c.input [] 0 = .done ⟨0, [], c.input, []⟩ := by
    unfold Fd.read Fd.readGeneric
    cases c.input <;> rfl
  unfold turn
  rw [h]
  simp only []
  rw [if_neg (by decide), if_pos trivial, if_pos hc]

example : alice.closes = true ∧ content alice.input ≠ [] := by decide

/-! ## Providing datagrams -/

section
variable {σ : Type} (w : Datagram.World σ) (le : Bool)

/-- So many datagrams of IPv4 have been dealt with if and only if each of them has been returned whole (as far as there was room for it) to the address and the port that it came from. -/
theorem echo_datagrams4 (hw : Sane w) (fd : Int) (block n : Nat) (s s' : σ) : repeated (datagram4 w le fd block) n s = .running s' ↔ Echoes4 w fd block n s s' := by
  induction n generalizing s with
  | zero =>
    constructor
    · intro h; cases h; exact .done _
    · intro h; cases h; rfl
  | succ n ih =>
    unfold repeated
    rw [and_running]
    constructor
    · rintro ⟨s2, h1, h2⟩
      obtain ⟨k, s1, a, p, hr, hd, hn, ha, hp, hs⟩ := (datagram4_running w le hw fd block s s2).mp h1
      exact .more hr hd hn ha hp hs ((ih s2).mp h2)
    · intro h
      cases h with
      | more hr hd hn ha hp hs rest => exact ⟨_, (datagram4_running w le hw fd block s _).mpr ⟨_, _, _, _, hr, hd, hn, ha, hp, hs⟩, (ih _).mpr rest⟩

/-- The same of IPv6, but not to the interface. -/
theorem echo_datagrams6_partial (hw : Sane w) (hw6 : Only6 w) (fd : Int) (block n : Nat) (s s' : σ) : repeated (datagram6 w le fd block) n s = .running s' ↔ Echoes6 w fd block n s s' := by
  induction n generalizing s with
  | zero =>
    constructor
    · intro h; cases h; exact .done _
    · intro h; cases h; rfl
  | succ n ih =>
    unfold repeated
    rw [and_running]
    constructor
    · rintro ⟨s2, h1, h2⟩
      obtain ⟨k, s1, m, a, p, z, hr, hd, hn, ha, hp, hm, hs⟩ := (datagram6_running w le hw hw6 fd block s s2).mp h1
      exact .more hr hd hn ha hp hm hs ((ih s2).mp h2)
    · intro h
      cases h with
      | more hr hd hn ha hp hm hs rest => exact ⟨_, (datagram6_running w le hw hw6 fd block s _).mpr ⟨_, _, _, _, _, _, hr, hd, hn, ha, hp, hm, hs⟩, (ih _).mpr rest⟩

/-- A datagram without a byte, from whomever, ends the provider. -/
theorem echo_empty_counterexample (fd : Int) (block : Nat) (s s1 : σ) (k : Datagram.Packet) (h : w.recvfrom fd block 0 s = (.ok k, s1)) (hk : k.total = 0) : datagram4 w le fd block s = .panics ∧ datagram6 w le fd block s = .panics := by
  constructor
  · unfold datagram4 Datagram.receive4
    rw [h]
    simp [hk]
  · unfold datagram6 Datagram.receive6
    rw [h]
    simp [hk]

end

/-- A world: what there is to be received, and what has been sent. -/
def mailbox : Datagram.World (List (List Byte × Datagram.Name) × List (List Byte × Option Datagram.Name)) where
  recvfrom := fun _ size _ s =>
    match s.1 with
    | [] => (.error .other, s)
    | k :: q => (.ok ⟨(k.1.take size).length, k.1.take size, k.2⟩, (q, s.2))
  sendto := fun _ data _ dest s => (.ok data.length, (s.1, s.2 ++ [(data, dest)]))
  getsockname := fun _ s => (.error .other, s)
  getpeername := fun _ s => (.error .other, s)

theorem mailbox_sane : Sane mailbox := by
  refine ⟨fun fd size s k s' h => ?_⟩
  unfold mailbox at h
  simp only [] at h
  split at h
  · exact (nomatch h)
  · cases h
    exact ⟨rfl, by rw [List.length_take]; omega⟩

/-- 10.0.0.7, port 4660. -/
def carol : Datagram.Name := .in4 (fun i => [0x12, 0x34].getD i 0) (fun i => [10, 0, 0, 7].getD i 0)

/-- fe80::1, port 4660, of interface 3. -/
def dave (z : BitVec 32) : Datagram.Name := .in6 (fun i => [0x12, 0x34].getD i 0) (fun i => [0xfe, 0x80, 0, 0, 0, 0, 0, 0, 0, 0, 0, 0, 0, 0, 0, 1].getD i 0) z

example (le : Bool) : Sane mailbox ∧ repeated (datagram4 mailbox le 3 4) 2 ([([65, 66], carol), ([67, 68, 69, 70, 71], carol)], []) = .running ([], [([65, 66], some carol), ([67, 68, 69, 70], some carol)]) :=
  ⟨mailbox_sane, (echo_datagrams4 mailbox le mailbox_sane 3 4 2 _ _).mpr
    (.more (s1 := ([([67, 68, 69, 70, 71], carol)], [])) (k := ⟨2, [65, 66], carol⟩) (a := 0x0a000007) (p := 0x1234) rfl (by decide) ⟨_, _, rfl, by decide, by decide⟩ (by decide) (by decide) rfl
      (.more (s1 := ([], [([65, 66], some carol)])) (k := ⟨4, [67, 68, 69, 70], carol⟩) (a := 0x0a000007) (p := 0x1234) rfl (by decide) ⟨_, _, rfl, by decide, by decide⟩ (by decide) (by decide) rfl (.done _)))⟩

/-- A world in which there are only names of IPv6. -/
def mailbox6 : Datagram.World (List (List Byte × Datagram.Name) × List (List Byte × Option Datagram.Name)) :=
  { mailbox with recvfrom := fun fd size flags s =>
      match mailbox.recvfrom fd size flags s with
      | (.ok k, s') => (match k.name with | .in4 _ _ => (.error .other, s') | _ => (.ok k, s'))
      | r => r }

theorem mailbox6_sane : Sane mailbox6 ∧ Only6 mailbox6 := by
  refine ⟨⟨fun fd size s k s' h => ?_⟩, fun fd size s k s' h p b hk => ?_⟩
  · unfold mailbox6 at h
    simp only [] at h
    cases hm : mailbox.recvfrom fd size 0 s with
    | mk r s1 =>
    rw [hm] at h
    cases r with
    | error e => exact (nomatch h)
    | ok k1 =>
      simp only [] at h
      split at h
      · exact (nomatch h)
      · cases h; exact mailbox_sane.total fd size s k s' hm
  · unfold mailbox6 at h
    simp only [] at h
    cases hm : mailbox.recvfrom fd size 0 s with
    | mk r s1 =>
    rw [hm] at h
    cases r with
    | error e => exact (nomatch h)
    | ok k1 =>
      simp only [] at h
      split at h
      · exact (nomatch h)
      · rename_i hx
        cases h
        exact hx p b hk

/-- A datagram from an address that is local to a link is not returned to the interface that it came from. -/
theorem echo_scope_counterexample (le : Bool) : Sane mailbox6 ∧ Only6 mailbox6 ∧ repeated (datagram6 mailbox6 le 3 4) 1 ([([65], dave 3)], []) = .running ([], [([65], some (dave 0))]) ∧ dave 0 ≠ dave 3 :=
  ⟨mailbox6_sane.1, mailbox6_sane.2, (echo_datagrams6_partial mailbox6 le mailbox6_sane.1 mailbox6_sane.2 3 4 1 _ _).mpr
    (.more (s1 := ([], [])) (k := ⟨1, [65], dave 3⟩) (m := dave 0) (a := (fun j => [0xfe80, 0, 0, 0, 0, 0, 0, 1].getD j 0)) (p := 0x1234) (z := 3) rfl (by decide) ⟨_, _, _, rfl, by decide, by decide, by decide⟩ ⟨0, by decide⟩ (by decide)
      ⟨_, _, _, rfl, by decide, by decide, by decide⟩ rfl (.done _)),
   fun h => by
    unfold dave at h
    exact absurd (Datagram.Name.in6.inj h).2.2 (by decide)⟩

example (le : Bool) : datagram4 mailbox le 3 4 ([([], carol)], []) = .panics := (echo_empty_counterexample mailbox le 3 4 _ ([], []) ⟨0, [], carol⟩ rfl rfl).1

/-! ## Consuming -/

/-- A stream: at every time the standard output is what has come from the far end, and what has been sent to the far end is the standard input, up to now.  The tool ends only after all of the standard input has been sent, and after at least as many bytes have come back; until then it goes on.  Its behaviour is defined. -/
theorem echo_consumes (block : BitVec 64) (h0 : 0 < block.toNat) (h63 : block.toNat < 2 ^ 63) (buffer : List Byte) (hb : buffer.length = block.toNat) (input source : List Source) (output sink : List Sink) (rs : List (List Ready)) :
    (∀ s, consume (stream block) block rs (Consumer.start (input, output, []) source sink buffer) = .exits s →
      s.far.2.2 = content source ∧ content input = s.out ++ content s.far.1 ∧ (content source).length ≤ s.out.length ∧ ∃ l, Streams input [] l s.far.1 s.far.2.2 ∧ given l = s.sent ∧ (gotten l).flatten = s.out) ∧
    (∀ s, consume (stream block) block rs (Consumer.start (input, output, []) source sink buffer) = .running s →
      content source = s.far.2.2 ++ (if s.eof then [] else content s.source) ∧ content input = s.out ++ content s.far.1 ∧ ¬ (s.eof = true ∧ (content source).length ≤ s.out.length) ∧
        ∃ l, Streams input [] l s.far.1 s.far.2.2 ∧ given l = s.sent ∧ (gotten l).flatten = s.out) ∧
    consume (stream block) block rs (Consumer.start (input, output, []) source sink buffer) ≠ .undefined := by
  have h := consume_inv (stream block) block h0 h63 (stream_honest block h0) (input, output, []) source rs _ (inv_start (stream block) block (input, output, []) source sink buffer hb)
  refine ⟨fun s hs => ?_, fun s hs => ?_, fun hs => ?_⟩
  · rw [hs] at h
    obtain ⟨hi, he, hle⟩ := h
    obtain ⟨l, ht, hg, hgo⟩ := hi.trace
    have hst := trace_streams block h0 h63 ht
    obtain ⟨h1, h2⟩ := streams_bytes hst
    have hc := hi.closed he
    rw [hgo] at h1
    refine ⟨?_, h1, by rw [hc]; exact hle, l, hst, hg, hgo⟩
    rw [h2, hg, hc]; rfl
  · rw [hs] at h
    obtain ⟨hi, hne⟩ := h
    obtain ⟨l, ht, hg, hgo⟩ := hi.trace
    have hst := trace_streams block h0 h63 ht
    obtain ⟨h1, h2⟩ := streams_bytes hst
    rw [hgo] at h1
    have h2' : s.far.2.2 = s.sent.flatten := by rw [h2, hg]; rfl
    refine ⟨?_, h1, ?_, l, hst, hg, hgo⟩
    · cases he : s.eof with
      | true => rw [if_pos rfl, h2', hi.closed he, List.append_nil]
      | false => rw [if_neg (by simp), h2', hi.opened he]
    · rintro ⟨he, hle⟩
      exact hne ⟨he, by rw [hi.closed he] at hle; exact hle⟩
  · rw [hs] at h
    exact stream_defined block h0 h63 h

/-- If what the far end sends is what it has been sent, then the tool is a pipe: when it ends its standard output is its standard input. -/
theorem echo_consumes_echo_partial (block : BitVec 64) (h0 : 0 < block.toNat) (h63 : block.toNat < 2 ^ 63) (buffer : List Byte) (hb : buffer.length = block.toNat) (input source : List Source) (output sink : List Sink) (rs : List (List Ready))
    (he : content input = content source) (s : Consumer (List Source × List Sink × List Byte)) (hs : consume (stream block) block rs (Consumer.start (input, output, []) source sink buffer) = .exits s) : s.out = content source := by
  obtain ⟨_, h2, h3, _⟩ := (echo_consumes block h0 h63 buffer hb input source output sink rs).1 s hs
  rw [he] at h2
  have := congrArg List.length h2
  rw [List.length_append] at this
  have h0 : content s.far.1 = [] := List.length_eq_zero_iff.mp (by omega)
  rw [h2, h0, List.append_nil]

/-- If the far end only sends and takes what it is sent, the standard input can be read and the standard output takes what is written, then the tool does not fail. -/
theorem echo_consumes_survives_partial (block : BitVec 64) (h0 : 0 < block.toNat) (h63 : block.toNat < 2 ^ 63) (buffer : List Byte) (hb : buffer.length = block.toNat) (input source : List Source) (output sink : List Sink) (rs : List (List Ready))
    (hi : Talkative input) (ho : Willing output) (hs : Source.error ∉ source) (hk : Willing sink) : consume (stream block) block rs (Consumer.start (input, output, []) source sink buffer) ≠ .panics :=
  consume_nice block h0 h63 rs _ ⟨hb, hi, ho, hk, fun _ => hs⟩

/-- What there is in the following. -/
def wide9 : List Sink := [.room 9, .room 9, .room 9, .room 9]

example : content [.data [65, 66], .data [67]] = content [.data [65, 66, 67], .eof] ∧ Talkative [.data [65, 66], .data [67]] ∧ Willing wide9 ∧
    (match consume (stream 2) 2 [[.source], [.source, .sock], [.source], [.sock]] (Consumer.start ([.data [65, 66], .data [67]], wide9, []) [.data [65, 66, 67], .eof] wide9 [0, 0]) with
      | .exits s => some (s.out, s.sent) | _ => none) = some ([65, 66, 67], [[65, 66], [67]]) := by
  refine ⟨by decide, ?_, ?_, by decide +kernel⟩
  · intro e he
    simp only [List.mem_cons, List.not_mem_nil, or_false] at he
    rcases he with rfl | rfl
    · exact ⟨_, _, rfl⟩
    · exact ⟨_, _, rfl⟩
  · intro e he
    simp only [wide9, List.mem_cons, List.not_mem_nil, or_false] at he
    refine ⟨8, ?_⟩
    rcases he with rfl | rfl | rfl | rfl <;> rfl

/-- The tool counts bytes: with a far end that first greets it ends before what it has sent has come back.  (The far end is one that sends two bytes of its own, and then what it has been sent.) -/
theorem echo_greeting_counterexample :
    (match consume (stream 4) 4 [[.sock], [.source], [.source]] (Consumer.start ([.data [72, 73], .data [65, 66]], wide9, []) [.data [65, 66], .eof] wide9 [0, 0, 0, 0]) with
      | .exits s => some (s.out, s.far.2.2, s.far.1) | _ => none) = some ([72, 73], [65, 66], [.data [65, 66]]) := by decide +kernel

/-- With a far end that closes the connection the tool fails, and what there is still on the standard input is lost. -/
theorem echo_closed_counterexample : ¬ ∀ rs input source, consume (stream 4) 4 rs (Consumer.start (input, wide9, []) source wide9 [0, 0, 0, 0]) ≠ .panics :=
  fun h => h [[.source], [.sock], [.sock]] [.data [65], .eof] [.data [65], .data [66], .eof] (by decide +kernel)

/-- With a block of no bytes the tool ends as soon as there is something on its standard input, with nothing sent. -/
theorem echo_nothing_counterexample :
    (match consume (stream 0) 0 [[.source]] (Consumer.start ([], wide9, []) [.data [65, 66], .eof] wide9 []) with | .exits s => some (s.out, s.far.2.2, s.source) | _ => none) = some ([], [], [.data [65, 66], .eof]) := by decide +kernel

section
variable {σ : Type} (w : Datagram.World σ) (le : Bool)

/-- Datagrams of IPv4: every block of the standard input is one datagram to the server, and the standard output is what there has been in the datagrams that have come from its port.  The tool ends only after all of the standard input has been sent, and after at least as many bytes have come back. -/
theorem echo_consumes4 (hw : Sane w) (block : BitVec 64) (h0 : 0 < block.toNat) (h63 : block.toNat < 2 ^ 63) (buffer : List Byte) (hb : buffer.length = block.toNat) (fd : Int) (server : BitVec 32) (rendezvous : BitVec 16) (hp : rendezvous ≠ 0)
    (far : σ) (source : List Source) (sink : List Sink) (rs : List (List Ready)) :
    (∀ s, consume (datagrams4 w le fd block.toNat server rendezvous) block rs (Consumer.start far source sink buffer) = .exits s →
      (∃ l, Packets4 w fd block.toNat server.toNat rendezvous.toNat far l s.far ∧ (given l).flatten = content source ∧ (gotten l).flatten = s.out) ∧ (content source).length ≤ s.out.length) ∧
    (∀ s, consume (datagrams4 w le fd block.toNat server rendezvous) block rs (Consumer.start far source sink buffer) = .running s →
      (∃ l, Packets4 w fd block.toNat server.toNat rendezvous.toNat far l s.far ∧ content source = (given l).flatten ++ (if s.eof then [] else content s.source) ∧ (gotten l).flatten = s.out) ∧
        ¬ (s.eof = true ∧ (content source).length ≤ s.out.length)) ∧
    consume (datagrams4 w le fd block.toNat server rendezvous) block rs (Consumer.start far source sink buffer) ≠ .undefined := by
  have h := consume_inv (datagrams4 w le fd block.toNat server rendezvous) block h0 h63 (datagrams4_honest w hw le fd block server rendezvous hp) far source rs _ (inv_start _ block far source sink buffer hb)
  refine ⟨fun s hs => ?_, fun s hs => ?_, fun hs => ?_⟩
  · rw [hs] at h
    obtain ⟨hi, he, hle⟩ := h
    obtain ⟨l, ht, hg, hgo⟩ := hi.trace
    have hc := hi.closed he
    exact ⟨⟨l, trace_packets4 w hw le fd block server rendezvous hp ht, by rw [hg, hc], hgo⟩, by rw [hc]; exact hle⟩
  · rw [hs] at h
    obtain ⟨hi, hne⟩ := h
    obtain ⟨l, ht, hg, hgo⟩ := hi.trace
    refine ⟨⟨l, trace_packets4 w hw le fd block server rendezvous hp ht, ?_, hgo⟩, ?_⟩
    · rw [hg]
      cases he : s.eof with
      | true => rw [if_pos rfl, hi.closed he, List.append_nil]
      | false => rw [if_neg (by simp), hi.opened he]
    · rintro ⟨he, hle⟩
      exact hne ⟨he, by rw [hi.closed he] at hle; exact hle⟩
  · rw [hs] at h
    rcases h with ⟨far', mem, hm, h⟩ | ⟨far', bs, _, _, h⟩
    · obtain ⟨_, _, _, _, h', _⟩ := datagrams4_receive w hw le fd block server rendezvous hp far' mem hm
      rw [h'] at h; exact (nomatch h)
    · exact (nomatch h)

/-- The same of IPv6. -/
theorem echo_consumes6 (hw : Sane w) (hw6 : Only6 w) (block : BitVec 64) (h0 : 0 < block.toNat) (h63 : block.toNat < 2 ^ 63) (buffer : List Byte) (hb : buffer.length = block.toNat) (fd : Int) (server : Address.V6) (rendezvous : BitVec 16)
    (hp : rendezvous ≠ 0) (far : σ) (source : List Source) (sink : List Sink) (rs : List (List Ready)) :
    (∀ s, consume (datagrams6 w le fd block.toNat server rendezvous) block rs (Consumer.start far source sink buffer) = .exits s →
      (∃ l, Packets6 w fd block.toNat (fun j => (server j).toNat) rendezvous.toNat far l s.far ∧ (given l).flatten = content source ∧ (gotten l).flatten = s.out) ∧ (content source).length ≤ s.out.length) ∧
    (∀ s, consume (datagrams6 w le fd block.toNat server rendezvous) block rs (Consumer.start far source sink buffer) = .running s →
      (∃ l, Packets6 w fd block.toNat (fun j => (server j).toNat) rendezvous.toNat far l s.far ∧ content source = (given l).flatten ++ (if s.eof then [] else content s.source) ∧ (gotten l).flatten = s.out) ∧
        ¬ (s.eof = true ∧ (content source).length ≤ s.out.length)) ∧
    consume (datagrams6 w le fd block.toNat server rendezvous) block rs (Consumer.start far source sink buffer) ≠ .undefined := by
  have h := consume_inv (datagrams6 w le fd block.toNat server rendezvous) block h0 h63 (datagrams6_honest w hw hw6 le fd block server rendezvous hp) far source rs _ (inv_start _ block far source sink buffer hb)
  refine ⟨fun s hs => ?_, fun s hs => ?_, fun hs => ?_⟩
  · rw [hs] at h
    obtain ⟨hi, he, hle⟩ := h
    obtain ⟨l, ht, hg, hgo⟩ := hi.trace
    have hc := hi.closed he
    exact ⟨⟨l, trace_packets6 w hw hw6 le fd block server rendezvous hp ht, by rw [hg, hc], hgo⟩, by rw [hc]; exact hle⟩
  · rw [hs] at h
    obtain ⟨hi, hne⟩ := h
    obtain ⟨l, ht, hg, hgo⟩ := hi.trace
    refine ⟨⟨l, trace_packets6 w hw hw6 le fd block server rendezvous hp ht, ?_, hgo⟩, ?_⟩
    · rw [hg]
      cases he : s.eof with
      | true => rw [if_pos rfl, hi.closed he, List.append_nil]
      | false => rw [if_neg (by simp), hi.opened he]
    · rintro ⟨he, hle⟩
      exact hne ⟨he, by rw [hi.closed he] at hle; exact hle⟩
  · rw [hs] at h
    rcases h with ⟨far', mem, hm, h⟩ | ⟨far', bs, _, _, h⟩
    · obtain ⟨_, _, _, _, h', _⟩ := datagrams6_receive w hw hw6 le fd block server rendezvous hp far' mem hm
      rw [h'] at h; exact (nomatch h)
    · exact (nomatch h)

end

example (le : Bool) : Sane mailbox ∧ (0x1234#16 ≠ 0) ∧
    (match consume (datagrams4 mailbox le 3 (2#64).toNat 0x0a000007 0x1234) 2 [[.source], [.source], [.sock], [.source, .sock]] (Consumer.start ([([65, 66], carol), ([67], carol)], []) [.data [65, 66, 67], .eof] wide9 [0, 0]) with
      | .exits s => some (s.out, s.far.1.length, s.far.2.map (·.1)) | _ => none) = some ([65, 66, 67], 0, [[65, 66], [67]]) := by
  refine ⟨mailbox_sane, by decide, ?_⟩
  cases le <;> decide +kernel

example (le : Bool) : Sane mailbox6 ∧ Only6 mailbox6 ∧
    (match consume (datagrams6 mailbox6 le 3 (2#64).toNat (fun j => [0xfe80, 0, 0, 0, 0, 0, 0, 1].getD j 0) 0x1234) 2 [[.source], [.source], [.sock], [.source, .sock]] (Consumer.start ([([65, 66], dave 3), ([67], dave 3)], []) [.data [65, 66, 67], .eof] wide9 [0, 0]) with
      | .exits s => some (s.out, s.far.1.length, s.far.2.map (·.1)) | _ => none) = some ([65, 66, 67], 0, [[65, 66], [67]]) := by
  refine ⟨mailbox6_sane.1, mailbox6_sane.2, ?_⟩
  cases le <;> decide +kernel

/-- Whoever sends from the right port is taken for the server: what comes from 10.0.0.7 is written although 10.0.0.1 has been asked. -/
theorem echo_stranger_counterexample (le : Bool) :
    (match consume (datagrams4 mailbox le 3 2 0x0a000001 0x1234) 2 [[.source], [.source, .sock]] (Consumer.start ([([88], carol)], []) [.data [65], .eof] wide9 [0, 0]) with | .exits s => some s.out | _ => none) = some [88] := by
  cases le <;> decide +kernel

/-- A datagram that is lost, or not returned as long as it was, and the tool does not end: it goes on with nothing left to be received. -/
theorem echo_lost_counterexample (le : Bool) :
    (match consume (datagrams4 mailbox le 3 2 0x0a000007 0x1234) 2 [[.source], [.source], [.source], [.sock]] (Consumer.start ([([67], carol)], []) [.data [65, 66, 67], .eof] wide9 [0, 0]) with
      | .running s => some (s.out, s.eof, s.far.1.length) | _ => none) = some ([67], true, 0) := by
  cases le <;> decide +kernel

end Diminuto.Echo
