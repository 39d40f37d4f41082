import Verif.ConestogaLemmas2

/-!
# Lemmas on the tool that passes datagrams over a serial line: how it stops
-/

namespace Diminuto.Framer

/-- The octet that completes a frame. -/
theorem pull_last (f : Framer) (b : List Byte) (g : Framer) (rest : List Byte) (h : pull f b = some (g, true, rest)) :
    ∃ t c e, b = t ++ c :: rest ∧ digest f t = some (e, []) ∧ machineByte e c = some g ∧ g.state = .complete ∧ g.length ≠ 0 := by
  induction b generalizing f with
  | nil => cases h
  | cons c b ih =>
    rw [pull] at h
    rcases ht : turn f c with _ | ⟨x, t⟩
    · rw [ht] at h; cases h
    · rw [ht] at h
      cases t with
      | true =>
        cases h
        refine ⟨[], c, f, rfl, rfl, ?_⟩
        unfold turn at ht
        rw [Option.map_eq_some_iff] at ht
        obtain ⟨y, hy, ht⟩ := ht
        cases hs : y.state <;> rw [hs] at ht <;> simp only [] at ht <;> (try (cases ht; done))
        by_cases hl : y.length = 0
        · rw [if_pos hl] at ht; cases ht
        · rw [if_neg hl] at ht
          cases ht
          exact ⟨hy, hs, hl⟩
      | false =>
        obtain ⟨t, c', e, h1, h2, h3⟩ := ih x h
        refine ⟨c :: t, c', e, by rw [h1]; rfl, ?_, h3⟩
        rw [digest, ht]
        simp [h2]

end Diminuto.Framer

namespace Diminuto.Conestoga

open Framer

/-- What is known of the datagrams that have been sent however the run has ended. -/
structure Sound (c : Config) (memory past : List Byte) (log : List Entry) : Prop where
  frames : ∃ (h : Framer) (processed : List Byte) (done : List Framer), digest (init memory c.size) processed = some (h, done) ∧ processed <+: past ∧
    ∀ x ∈ sent log, ∃ g ∈ done, x.2 = g.buffer.take g.total ∧ g.total ≤ g.buffer.length
  peers : ∀ a q d b, log = a ++ .sent q d :: b → (c.role = .client ∧ q = c.service) ∨ last a = some q

theorem Inv.sound {w : World} {c : Config} {memory past : List Byte} {s : State} (h : Inv w c memory past s) : Sound c memory past s.log := by
  obtain ⟨⟨f, n, processed, done, l, h1, h2, h3, h4, h5, h6, h7⟩, _, _, h9⟩ := h
  refine ⟨⟨f, processed, done, h2, ⟨s.buffer ++ s.line, by rw [h3, List.append_assoc]⟩, ?_⟩, h9⟩
  intro x hx
  obtain ⟨g, hg, he⟩ := h4.1 x hx
  exact ⟨g, hg, he, h6 g hg⟩

/-- Entries that are not datagrams that are sent change nothing. -/
theorem Sound.snoc {c : Config} {memory past : List Byte} {log : List Entry} (h : Sound c memory past log) (x : Entry) (hx : ∀ q d, x ≠ .sent q d) : Sound c memory past (log ++ [x]) := by
  obtain ⟨⟨f, processed, done, h1, h2, h3⟩, h4⟩ := h
  refine ⟨⟨f, processed, done, h1, h2, ?_⟩, peers_append _ _ _ h4 (fun q d h => absurd h (hx q d))⟩
  have : sent (log ++ [x]) = sent log := by
    rw [sent_append]
    cases x with
    | sent q d => exact absurd rfl (hx q d)
    | _ => simp [sent]
  rw [this]
  exact h3

/-- How a frame is sent if that stops the loop. -/
theorem forward_stopped (w : World) (c : Config) (s s' : State) (h : forward w c s = .stopped s') :
    s.framer.total ≤ s.framer.buffer.length ∧ s'.buffer = s.buffer ∧ s'.line = s.line ∧ (s'.log = s.log ∨ (c.role = .client ∧ s'.log = s.log ++ [.sent c.service (s.framer.buffer.take s.framer.total)])) ∧
      (s.sender.port = 0#16 ∨ w.send s'.log s.sender (s.framer.buffer.take s.framer.total) ≤ 0) := by
  unfold forward at h
  by_cases ht : s.framer.total > s.framer.buffer.length
  · rw [if_pos ht] at h; cases h
  · rw [if_neg ht] at h
    simp only [] at h
    generalize hdata : s.framer.buffer.take s.framer.total = data at h ⊢
    have key : ∀ log, (if (datagramSend w s.sender data log).1 ≤ 0 then Run.stopped { s with framer := reset s.framer, log := (datagramSend w s.sender data log).2 }
          else Run.running { s with framer := reset s.framer, log := (datagramSend w s.sender data log).2 }) = Run.stopped s' →
        s'.buffer = s.buffer ∧ s'.line = s.line ∧ s'.log = log ∧ (s.sender.port = 0#16 ∨ w.send log s.sender data ≤ 0) := by
      intro log h
      unfold datagramSend at h
      by_cases hp : s.sender.port = 0#16
      · rw [if_pos hp, if_pos (by simp only []; omega)] at h
        cases h
        exact ⟨rfl, rfl, rfl, Or.inl hp⟩
      · rw [if_neg hp] at h
        simp only [] at h
        by_cases hr : w.send log s.sender data > 0
        · rw [if_neg (by omega)] at h; cases h
        · rw [if_pos (by omega), if_neg hr] at h
          cases h
          exact ⟨rfl, rfl, rfl, Or.inr (by omega)⟩
    cases hrole : c.role with
    | server =>
      rw [hrole] at h
      obtain ⟨h1, h2, h3, h4⟩ := key _ h
      exact ⟨by omega, h1, h2, Or.inl h3, by rw [h3]; exact h4⟩
    | client =>
      rw [hrole] at h
      obtain ⟨h1, h2, h3, h4⟩ := key _ h
      refine ⟨by omega, h1, h2, ?_, by rw [h3]; exact h4⟩
      rw [h3]
      unfold datagramSend
      by_cases hp : c.service.port = 0#16
      · rw [if_pos hp]; exact Or.inl rfl
      · rw [if_neg hp]
        simp only []
        by_cases hr : w.send s.log c.service data > 0
        · rw [if_pos hr]; exact Or.inr ⟨by simp, rfl⟩
        · rw [if_neg hr]; exact Or.inl rfl

theorem step_stopped (w : World) (c : Config) (memory past : List Byte) (hm : c.size ≤ memory.length) (hsize : c.size ≤ 65535) (s s' : State) (e : Event) (hi : Inv w c memory past s) (h : step w c s e = .stopped s') :
    Sound c memory (past ++ arrived [e]) s'.log ∧ Reason w c past s e s' := by
  cases e with
  | idle => cases h
  | arrive o => cases h
  | terminate => cases h; exact ⟨by simpa [arrived] using hi.sound, rfl⟩
  | lost => cases h; exact ⟨by simpa [arrived] using hi.sound, rfl⟩
  | packet q d =>
    have hso : Sound c memory (past ++ arrived [.packet q d]) s.log := by simpa [arrived] using hi.sound
    obtain ⟨⟨f, n, processed, done, l, h1, h2, h3, h4, h5, h6, h7⟩, _, h8, h9⟩ := hi
    unfold step at h
    simp only [] at h
    by_cases hd : d.take c.size = []
    · rw [if_pos hd] at h; cases h; exact ⟨hso, Or.inl ⟨hd, rfl⟩⟩
    · rw [if_neg hd] at h
      by_cases hsh : c.shared ∧ s.input
      · rw [if_pos hsh] at h; cases h
      · rw [if_neg hsh] at h
        have hlen : (d.take c.size).length ≤ c.size := by rw [List.length_take]; exact Nat.min_le_left _ _
        obtain ⟨wire, hw, hf⟩ := (framer_writer_emits_frame s.framer (d.take c.size)).1 (by omega)
        rw [hw] at h
        simp only [] at h
        cases hp : w.put (s.log ++ [Entry.received q (d.take c.size)]) wire with
        | none => rw [hp] at h; cases h
        | some k =>
          rw [hp] at h
          cases h
          refine ⟨(hso.snoc _ (by intro q d h; cases h)).snoc _ (by intro q d h; cases h), Or.inr ⟨wire, k, ?_, hp, by simp⟩⟩
          have hn1 : s.framer.generated + 1 = BitVec.ofNat 16 (written s.log).length := by
            have : s.framer.generated = n := by rw [h1]
            rw [this, h7]
            apply BitVec.eq_of_toNat_eq
            simp [BitVec.toNat_add]
            omega
          rw [← hn1]
          exact hf
  | serial n =>
    have ea : past ++ arrived [Event.serial n] = past := by simp [arrived]
    rw [ea]
    have hso := hi.sound
    obtain ⟨⟨f, g, processed, done, l, h1, h2, h3, h4, h5, h6, h7⟩, hfr, h8, h9⟩ := hi
    unfold step at h
    simp only [] at h
    unfold reader at h
    simp only [] at h
    generalize hb : (if s.buffer = [] then s.line.take n else s.buffer) = b at h
    generalize hl : (if s.buffer = [] then s.line.drop n else s.line) = line at h
    have hbl : b ++ line = s.buffer ++ s.line := by
      rw [← hb, ← hl]
      by_cases hz : s.buffer = []
      · rw [if_pos hz, if_pos hz, hz, List.take_append_drop]; rfl
      · rw [if_neg hz, if_neg hz]
    by_cases hz : b = []
    · rw [if_pos hz] at h
      cases h
      refine ⟨hso, Or.inl ?_⟩
      rw [hz] at hb
      by_cases hbz : s.buffer = []
      · rw [if_pos hbz, List.take_eq_nil_iff] at hb
        exact ⟨hbz, Or.comm.mp hb, rfl⟩
      · rw [if_neg hbz] at hb; exact absurd hb hbz
    · rw [if_neg hz] at h
      rcases hp : pull s.framer b with _ | ⟨x, t, rest⟩
      · rw [hp] at h; cases h
      · rw [hp] at h
        simp only [] at h
        cases t with
        | false => rw [if_neg (by decide)] at h; cases h
        | true =>
          rw [if_pos rfl] at h
          obtain ⟨k1, k2, k3, k4, k5⟩ := forward_stopped w c _ s' h
          simp only [] at k1 k2 k3 k4 k5
          obtain ⟨taken, hr, _, hd⟩ := (pull_digest s.framer b).1 x rest hp
          rw [h1, digest_generated, Option.map_eq_some_iff] at hd
          obtain ⟨⟨y, z⟩, hy, hd⟩ := hd
          simp only [Prod.mk.injEq] at hd
          obtain ⟨hx, hz'⟩ := hd
          obtain ⟨v, rfl, hv⟩ : ∃ v, z = [v] ∧ { v with generated := g } = x := by
            cases z with
            | nil => cases hz'
            | cons v z =>
              simp only [List.map_cons, List.cons.injEq, List.map_eq_nil_iff] at hz'
              exact ⟨v, by rw [hz'.2], hz'.1⟩
          have et : x.total = v.total := by rw [← hv]
          have eb : x.buffer = v.buffer := by rw [← hv]
          rw [et, eb] at k1 k4 k5
          have hpast : past = processed ++ taken ++ (rest ++ line) := by
            rw [h3, List.append_assoc, ← hbl, hr]; simp
          refine ⟨⟨⟨y, processed ++ taken, done ++ [v], ?_, ⟨rest ++ line, hpast.symm⟩, ?_⟩, ?_⟩, Or.inr ⟨?_, ?_, ?_⟩⟩
          · rw [digest_append, h2]; simp [hy]
          · intro z hz
            have old : z ∈ sent s.log → ∃ g ∈ done ++ [v], z.2 = g.buffer.take g.total ∧ g.total ≤ g.buffer.length := by
              intro hz
              obtain ⟨g, hg, he⟩ := h4.1 z hz
              exact ⟨g, by simp [hg], he, h6 g hg⟩
            rcases k4 with k4 | ⟨_, k4⟩
            · rw [k4] at hz; exact old hz
            · rw [k4, sent_append] at hz
              rcases List.mem_append.mp hz with hz | hz
              · exact old hz
              · simp only [sent, List.filterMap_cons, List.filterMap_nil, List.mem_singleton] at hz
                exact ⟨v, by simp, by rw [hz], k1⟩
          · rcases k4 with k4 | ⟨hrole, k4⟩
            · rw [k4]; exact h9
            · rw [k4]
              apply peers_append _ _ _ h9
              intro q d hq
              cases hq
              exact Or.inl ⟨hrole, rfl⟩
          · obtain ⟨t, ch, e, q1, q2, q3, q4, q5⟩ := pull_last s.framer b x rest hp
            have htt : taken = t ++ [ch] := by
              have : taken ++ rest = (t ++ [ch]) ++ rest := by rw [← hr, q1]; simp
              exact List.append_cancel_right this
            -- the same without the number of frames that have been written
            rw [h1, digest_generated, Option.map_eq_some_iff] at q2
            obtain ⟨⟨e', z⟩, q2, q2'⟩ := q2
            simp only [Prod.mk.injEq, List.map_eq_nil_iff] at q2'
            obtain ⟨rfl, rfl⟩ := q2'
            rw [machineByte_generated, Option.map_eq_some_iff] at q3
            obtain ⟨x', q3, rfl⟩ := q3
            have hdig : digest (init memory c.size) (processed ++ t) = some (e', done) := by
              rw [digest_append, h2]; simp [q2]
            obtain ⟨⟨ops, o1, o2, o3⟩, _⟩ := digest_history (init memory c.size) (processed ++ t) [] _ e' done rfl (by simp [Stuck, init]) hdig
            obtain ⟨skipped, wire, v1, v2, v3, v4, _⟩ := completed_exact memory c.size hm x' ops ch e' (by simpa using o1) o2 q3 q4 q5
            refine ⟨skipped, wire, _, _, ?_, v2, fun h => ?_⟩
            · rw [k2, k3, hpast, ← v1, o3, htt]
              simp
            · rw [h] at v3
              simp only [List.length_nil] at v3
              omega
          · by_cases hp0 : s.sender.port = 0#16
            · cases hl : last s.log with
              | none => exact Or.inl rfl
              | some q =>
                rw [hl] at h8
                refine Or.inr ⟨q, rfl, Or.inl ?_⟩
                have : s.sender = q := h8
                rw [← this]; exact hp0
            · rcases k5 with k5 | k5
              · exact absurd k5 hp0
              · exact Or.inr ⟨s.sender, sender_known h8 hp0, Or.inr ⟨_, k5⟩⟩
          · rcases k4 with k4 | ⟨hrole, k4⟩
            · exact Or.inl k4
            · exact Or.inr ⟨hrole, _, k4⟩

theorem arrived_append (a b : List Event) : arrived (a ++ b) = arrived a ++ arrived b := by
  induction a with
  | nil => rfl
  | cons e a ih => cases e <;> simp [arrived, ih]

theorem run_inv (w : World) (c : Config) (memory : List Byte) (hsize : c.size ≤ 65535) (events : List Event) :
    ∀ (past : List Byte) (s s' : State), Inv w c memory past s → run w c s events = .running s' → Inv w c memory (past ++ arrived events) s' := by
  induction events with
  | nil =>
    intro past s s' hi h
    cases h
    simpa [arrived] using hi
  | cons e events ih =>
    intro past s s' hi h
    rw [run] at h
    cases hs : step w c s e with
    | undefined => rw [hs] at h; cases h
    | stopped x => rw [hs] at h; cases h
    | running x =>
      rw [hs] at h
      have := ih _ x s' (step_inv w c memory past hsize s x e hi hs) h
      have ea : arrived (e :: events) = arrived [e] ++ arrived events := arrived_append [e] events
      rw [ea, ← List.append_assoc]
      exact this

theorem run_stopped (w : World) (c : Config) (events : List Event) : ∀ (s s' : State), run w c s events = .stopped s' → ∃ a e b x, events = a ++ e :: b ∧ run w c s a = .running x ∧ step w c x e = .stopped s' := by
  induction events with
  | nil => intro s s' h; cases h
  | cons e events ih =>
    intro s s' h
    rw [run] at h
    cases hs : step w c s e with
    | undefined => rw [hs] at h; cases h
    | stopped x => rw [hs] at h; cases h; exact ⟨[], e, events, s, rfl, rfl, hs⟩
    | running x =>
      rw [hs] at h
      obtain ⟨a, e', b, y, h1, h2, h3⟩ := ih x s' h
      refine ⟨e :: a, e', b, y, by rw [h1]; rfl, ?_, h3⟩
      rw [run, hs]
      exact h2

/-- What is known of the datagrams of a run. -/
theorem run_sound (w : World) (c : Config) (memory : List Byte) (hm : c.size ≤ memory.length) (hsize : c.size ≤ 65535) (events : List Event) (s : State)
    (h : run w c (start c memory) events = .running s ∨ run w c (start c memory) events = .stopped s) : Sound c memory (arrived events) s.log := by
  rcases h with h | h
  · have := run_inv w c memory hsize events [] _ s (start_inv w c memory) h
    rw [List.nil_append] at this
    exact this.sound
  · obtain ⟨a, e, b, x, h1, h2, h3⟩ := run_stopped w c events _ s h
    have hi := run_inv w c memory hsize a [] _ x (start_inv w c memory) h2
    obtain ⟨⟨⟨f, processed, done, d1, ⟨r, hr⟩, d3⟩, hp⟩, _⟩ := step_stopped w c memory _ hm hsize x s e hi h3
    refine ⟨⟨f, processed, done, d1, ⟨r ++ arrived b, ?_⟩, d3⟩, hp⟩
    have : events = a ++ ([e] ++ b) := by rw [h1]; rfl
    rw [this, arrived_append, arrived_append, ← List.append_assoc, hr, List.nil_append, List.append_assoc]

theorem packets_append (a b : List Event) : packets (a ++ b) = packets a ++ packets b := by
  induction a with
  | nil => rfl
  | cons e a ih => cases e <;> simp [packets, ih]

theorem datagramSend_received (w : World) (p : Peer) (d : List Byte) (log : List Entry) : received (datagramSend w p d log).2 = received log := by
  unfold datagramSend
  by_cases hp : p.port = 0#16
  · rw [if_pos hp]
  · rw [if_neg hp]
    simp only []
    by_cases hr : w.send log p d > 0
    · rw [if_pos hr, received_append]; simp [received]
    · rw [if_neg hr]

/-- The log has the datagrams of the events. -/
theorem step_received (w : World) (c : Config) (s s' : State) (e : Event) (h : step w c s e = .running s') : received s'.log = received s.log ++ (packets [e]).map fun x => (x.1, x.2.take c.size) := by
  cases e with
  | idle => cases h; simp [packets]
  | terminate => cases h
  | lost => cases h
  | arrive o => cases h; simp [packets]
  | packet q d =>
    unfold step at h
    simp only [] at h
    by_cases hd : d.take c.size = []
    · rw [if_pos hd] at h; cases h
    · rw [if_neg hd] at h
      by_cases hsh : c.shared ∧ s.input
      · rw [if_pos hsh] at h; cases h
      · rw [if_neg hsh] at h
        cases hw : writer s.framer (d.take c.size) with
        | none => rw [hw] at h; cases h
        | some x =>
          obtain ⟨octets, f⟩ := x
          rw [hw] at h
          simp only [] at h
          cases hp : w.put (s.log ++ [Entry.received q (d.take c.size)]) octets with
          | some k => rw [hp] at h; cases h
          | none =>
            rw [hp] at h
            cases h
            rw [received_append, received_append]
            simp [received, packets]
  | serial n =>
    unfold step at h
    simp only [] at h
    cases hr : reader s.framer s.buffer s.line n with
    | undefined => rw [hr] at h; cases h
    | ended => rw [hr] at h; cases h
    | taken f complete buffer line =>
      rw [hr] at h
      simp only [] at h
      cases complete with
      | false => rw [if_neg (by decide)] at h; cases h; simp [packets]
      | true =>
        rw [if_pos rfl] at h
        unfold forward at h
        simp only [] at h
        by_cases ht : f.total > f.buffer.length
        · rw [if_pos ht] at h; cases h
        · rw [if_neg ht] at h
          simp only [packets, List.map_nil, List.append_nil]
          cases hrole : c.role with
          | server =>
            rw [hrole] at h
            simp only [] at h
            split at h
            · cases h
            · cases h; exact datagramSend_received _ _ _ _
          | client =>
            rw [hrole] at h
            simp only [] at h
            split at h
            · cases h
            · cases h; rw [datagramSend_received, datagramSend_received]

theorem run_received (w : World) (c : Config) (events : List Event) : ∀ (s s' : State), run w c s events = .running s' → received s'.log = received s.log ++ (packets events).map fun x => (x.1, x.2.take c.size) := by
  induction events with
  | nil => intro s s' h; cases h; simp [packets]
  | cons e events ih =>
    intro s s' h
    rw [run] at h
    cases hs : step w c s e with
    | undefined => rw [hs] at h; cases h
    | stopped x => rw [hs] at h; cases h
    | running x =>
      rw [hs] at h
      have ea : packets (e :: events) = packets [e] ++ packets events := packets_append [e] events
      rw [ih x s' h, step_received w c s x e hs, ea, List.map_append, List.append_assoc]

end Diminuto.Conestoga
