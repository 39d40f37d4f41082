import Verif.ConestogaLemmas

/-!
# Lemmas on the tool that passes datagrams over a serial line, continued
-/

namespace Diminuto.Conestoga

open Framer

/-- The framer that has digested one frame is the completed one, reset. -/
theorem digest_single {f y v x : Framer} {b : List Byte} {g : BitVec 16} (h : digest f b = some (y, [v])) (hx : { y with generated := g } = reset x) (hv : { v with generated := g } = x) : y = reset v := by
  have hg := digest_generated f f.generated b
  have e : ({ f with generated := f.generated } : Framer) = f := rfl
  rw [e, h] at hg
  simp only [Option.map_some, Option.some.injEq, Prod.mk.injEq, List.map_cons, List.map_nil, List.cons.injEq, and_true] at hg
  have h1 : y.generated = f.generated := by rw [hg.1]
  have h2 : v.generated = f.generated := by rw [hg.2]
  subst hv
  cases y
  cases v
  simp only [reset, Framer.mk.injEq] at hx h1 h2 ⊢
  simp_all

/-- The invariant of the loop; `past` has arrived on the line. -/
structure Inv (w : World) (c : Config) (memory past : List Byte) (s : State) : Prop where
  line : ∃ (h : Framer) (n : BitVec 16) (processed : List Byte) (done : List Framer) (l : List (Peer × List Byte)), s.framer = { h with generated := n } ∧ digest (init memory c.size) processed = some (h, done) ∧ past = processed ++ s.buffer ++ s.line ∧
    ((∀ x ∈ sent s.log, ∃ g ∈ done, x.2 = g.buffer.take g.total) ∧ (Serves w c → sent s.log = l.flatMap (copies c))) ∧ l.map (·.2) = done.map (fun g => g.buffer.take g.total) ∧
    (∀ g ∈ done, g.total ≤ g.buffer.length) ∧ n = 65535#16 + BitVec.ofNat 16 (written s.log).length
  frames : ∃ fr : List (List Byte × List Byte × BitVec 16), written s.log = fr.map (·.1) ∧ (received s.log).map (·.2) = fr.map (·.2.1) ∧
    (∀ x ∈ fr, IsFrame x.1 x.2.1 x.2.2 ∧ x.2.1 ≠ [] ∧ x.2.1.length ≤ c.size) ∧ fr.map (·.2.2) = (List.range fr.length).map (BitVec.ofNat 16)
  sender : s.sender = (last s.log).getD ⟨0, 0⟩
  peers : ∀ a q d b, s.log = a ++ .sent q d :: b → (c.role = .client ∧ q = c.service) ∨ last a = some q

theorem received_append (a b : List Entry) : received (a ++ b) = received a ++ received b := List.filterMap_append
theorem written_append (a b : List Entry) : written (a ++ b) = written a ++ written b := List.filterMap_append
theorem sent_append (a b : List Entry) : sent (a ++ b) = sent a ++ sent b := List.filterMap_append

theorem last_append (a b : List Entry) (h : received b = []) : last (a ++ b) = last a := by
  unfold last
  rw [received_append, h, List.append_nil]

theorem last_received (a : List Entry) (p : Peer) (d : List Byte) : last (a ++ [.received p d]) = some p := by
  unfold last
  rw [received_append]
  simp [received]

theorem start_inv (w : World) (c : Config) (memory : List Byte) : Inv w c memory [] (start c memory) := by
  refine ⟨⟨init memory c.size, 65535#16, [], [], [], rfl, rfl, rfl, ⟨fun g hg => absurd hg List.not_mem_nil, fun _ => rfl⟩, rfl, fun g hg => absurd hg List.not_mem_nil, rfl⟩, ⟨[], rfl, rfl, fun x hx => absurd hx List.not_mem_nil, rfl⟩, rfl, ?_⟩
  intro a q d b h
  cases a <;> cases h

/-- An entry in the middle of a log to which one entry is added. -/
theorem split_last {α : Type} {l a b : List α} {x y : α} (h : l ++ [x] = a ++ y :: b) : (∃ b', b = b' ++ [x] ∧ l = a ++ y :: b') ∨ (b = [] ∧ x = y ∧ l = a) := by
  rcases List.eq_nil_or_concat b with rfl | ⟨b', z, rfl⟩
  · obtain ⟨h1, h2⟩ := List.append_inj' h rfl
    exact Or.inr ⟨rfl, (List.cons.inj h2).1, h1⟩
  · rw [List.concat_eq_append] at h ⊢
    have h' : l ++ [x] = (a ++ y :: b') ++ [z] := by rw [h]; simp
    obtain ⟨h1, h2⟩ := List.append_inj' h' rfl
    exact Or.inl ⟨b', by rw [(List.cons.inj h2).1], h1⟩

theorem peers_append (c : Config) (log : List Entry) (x : Entry) (h : ∀ a q d b, log = a ++ .sent q d :: b → (c.role = .client ∧ q = c.service) ∨ last a = some q)
    (hx : ∀ q d, x = .sent q d → (c.role = .client ∧ q = c.service) ∨ last log = some q) :
    ∀ a q d b, log ++ [x] = a ++ .sent q d :: b → (c.role = .client ∧ q = c.service) ∨ last a = some q := by
  intro a q d b hl
  rcases split_last hl with ⟨b', _, h2⟩ | ⟨_, h2, h3⟩
  · exact h a q d b' h2
  · rw [← h3]; exact hx q d h2

theorem sender_known {log : List Entry} {s : Peer} (h : s = (last log).getD ⟨0, 0⟩) (hp : s.port ≠ 0#16) : last log = some s := by
  cases hl : last log with
  | none => rw [hl] at h; rw [h] at hp; exact absurd rfl hp
  | some p => rw [hl] at h; rw [h]; rfl

theorem packet_inv (w : World) (c : Config) (memory past : List Byte) (hsize : c.size ≤ 65535) (s s' : State) (q : Peer) (d : List Byte) (hi : Inv w c memory past s)
    (h : step w c s (.packet q d) = .running s') : Inv w c memory past s' := by
  obtain ⟨⟨f, n, processed, done, l, h1, h2, h3, h4, h5, h6, h7⟩, ⟨fr, a1, a2, a3, a4⟩, h8, h9⟩ := hi
  unfold step at h
  simp only [] at h
  by_cases hd : d.take c.size = []
  · rw [if_pos hd] at h; cases h
  · rw [if_neg hd] at h
    by_cases hsh : c.shared ∧ s.input
    · rw [if_pos hsh] at h; cases h
    · rw [if_neg hsh] at h
      have hlen : (d.take c.size).length ≤ c.size := by rw [List.length_take]; exact Nat.min_le_left _ _
      obtain ⟨wire, hw, hf⟩ := (framer_writer_emits_frame s.framer (d.take c.size)).1 (by omega)
      rw [hw] at h
      simp only [] at h
      cases hp : w.put (s.log ++ [Entry.received q (d.take c.size)]) wire with
      | some k => rw [hp] at h; cases h
      | none =>
        rw [hp] at h
        cases h
        have ewr : written (s.log ++ [Entry.received q (d.take c.size)] ++ [Entry.wrote wire]) = written s.log ++ [wire] := by
          rw [written_append, written_append]; simp [written]
        have ere : received (s.log ++ [Entry.received q (d.take c.size)] ++ [Entry.wrote wire]) = received s.log ++ [(q, d.take c.size)] := by
          rw [received_append, received_append]; simp [received]
        have ese : sent (s.log ++ [Entry.received q (d.take c.size)] ++ [Entry.wrote wire]) = sent s.log := by
          rw [sent_append, sent_append]; simp [sent]
        have hg : s.framer.generated = n := by rw [h1]
        have hn1 : n + 1 = BitVec.ofNat 16 (written s.log).length := by
          rw [h7]
          apply BitVec.eq_of_toNat_eq
          simp [BitVec.toNat_add]
          omega
        have hlfr : (written s.log).length = fr.length := by rw [a1, List.length_map]
        refine ⟨⟨f, n + 1, processed, done, l, ?_, h2, h3, by rw [ese]; exact h4, h5, h6, ?_⟩,
          ⟨fr ++ [(wire, d.take c.size, n + 1)], ?_, ?_, ?_, ?_⟩, ?_, ?_⟩
        · simp only [hg]; rw [h1]
        · rw [ewr, List.length_append, h7]
          apply BitVec.eq_of_toNat_eq
          simp [BitVec.toNat_add]
          omega
        · rw [ewr, a1]; simp
        · rw [ere, List.map_append, a2]; simp
        · intro x hx
          rcases List.mem_append.mp hx with hx | hx
          · exact a3 x hx
          · rw [List.mem_singleton] at hx
            subst hx
            rw [hg] at hf
            exact ⟨hf, hd, hlen⟩
        · rw [List.map_append, a4, List.length_append, List.length_singleton, List.range_succ, List.map_append]
          simp only [List.map_cons, List.map_nil]
          rw [hn1, hlfr]
        · show q = _
          rw [last_append _ _ (by simp [received]), last_received]
          rfl
        · apply peers_append
          · apply peers_append _ _ _ h9
            intro q d h; cases h
          · intro q d h; cases h

theorem forward_inv (w : World) (c : Config) (memory past : List Byte) (s s' : State) (f : Framer) (n : BitVec 16) (processed : List Byte) (done : List Framer)
    (l : List (Peer × List Byte)) (h1 : s.framer = { f with generated := n }) (h2 : digest (init memory c.size) processed = some (reset f, done ++ [f]))
    (h3 : past = processed ++ s.buffer ++ s.line) (h4 : (∀ x ∈ sent s.log, ∃ g ∈ done, x.2 = g.buffer.take g.total) ∧ (Serves w c → sent s.log = l.flatMap (copies c))) (h5 : l.map (·.2) = done.map (fun g => g.buffer.take g.total)) (h6 : ∀ g ∈ done, g.total ≤ g.buffer.length)
    (h7 : n = 65535#16 + BitVec.ofNat 16 (written s.log).length)
    (hfr : ∃ fr : List (List Byte × List Byte × BitVec 16), written s.log = fr.map (·.1) ∧ (received s.log).map (·.2) = fr.map (·.2.1) ∧
      (∀ x ∈ fr, IsFrame x.1 x.2.1 x.2.2 ∧ x.2.1 ≠ [] ∧ x.2.1.length ≤ c.size) ∧ fr.map (·.2.2) = (List.range fr.length).map (BitVec.ofNat 16))
    (h8 : s.sender = (last s.log).getD ⟨0, 0⟩) (h9 : ∀ a q d b, s.log = a ++ .sent q d :: b → (c.role = .client ∧ q = c.service) ∨ last a = some q)
    (h : forward w c s = .running s') : Inv w c memory past s' := by
  unfold forward at h
  have et : s.framer.total = f.total := by rw [h1]
  have eb : s.framer.buffer = f.buffer := by rw [h1]
  rw [et, eb] at h
  by_cases ht : f.total > f.buffer.length
  · rw [if_pos ht] at h; cases h
  · rw [if_neg ht] at h
    simp only [] at h
    generalize hdata : f.buffer.take f.total = data at h
    -- the entries that are added
    have hfin : ∀ log, received log = received s.log → written log = written s.log → last log = last s.log → (∀ a q d b, log = a ++ .sent q d :: b → (c.role = .client ∧ q = c.service) ∨ last a = some q) →
        (∀ x ∈ sent log, x ∈ sent s.log ∨ x.2 = data) → (Serves w c → sent log = sent s.log ++ (copies c (s.sender, data)).dropLast) →
        (if (datagramSend w s.sender data log).1 ≤ 0 then Run.stopped { s with framer := reset s.framer, log := (datagramSend w s.sender data log).2 }
          else Run.running { s with framer := reset s.framer, log := (datagramSend w s.sender data log).2 }) = Run.running s' → Inv w c memory past s' := by
      intro log er ew el hpe es' es h
      by_cases hport : s.sender.port = 0#16
      · have : datagramSend w s.sender data log = (-1, log) := by unfold datagramSend; rw [if_pos hport]
        rw [this, if_pos (by simp only []; omega)] at h
        cases h
      · by_cases hr : w.send log s.sender data > 0
        · have : datagramSend w s.sender data log = (w.send log s.sender data, log ++ [.sent s.sender data]) := by
            unfold datagramSend; rw [if_neg hport]; simp only []; rw [if_pos hr]
          rw [this, if_neg (by omega)] at h
          cases h
          have hlast : last s.log = some s.sender := sender_known h8 hport
          refine ⟨⟨reset f, n, processed, done ++ [f], l ++ [(s.sender, data)], ?_, h2, h3, ?_, ?_, ?_, ?_⟩, ?_, ?_, ?_⟩
          · simp only []; rw [h1]; rfl
          · show (∀ x ∈ sent (log ++ [.sent s.sender data]), _) ∧ (_ → sent (log ++ [.sent s.sender data]) = _)
            refine ⟨?_, fun hserve => ?_⟩
            · intro x hx
              rw [sent_append] at hx
              have hdat : x.2 = data → ∃ g ∈ done ++ [f], x.2 = g.buffer.take g.total := fun hx => ⟨f, by simp, by rw [hx, hdata]⟩
              rcases List.mem_append.mp hx with hx | hx
              · rcases es' x hx with hx | hx
                · obtain ⟨g, hg, hx⟩ := h4.1 x hx
                  exact ⟨g, by simp [hg], hx⟩
                · exact hdat hx
              · simp only [sent, List.filterMap_cons, List.filterMap_nil, List.mem_singleton] at hx
                exact hdat (by rw [hx])
            · rw [sent_append, es hserve, List.flatMap_append, h4.2 hserve, List.append_assoc]
              congr 1
              unfold copies
              cases c.role <;> simp [sent]
          · rw [List.map_append, List.map_append, h5]
            simp [hdata]
          · intro g hg
            rcases List.mem_append.mp hg with hg | hg
            · exact h6 g hg
            · rw [List.mem_singleton] at hg; subst hg; omega
          · show n = 65535#16 + BitVec.ofNat 16 (written (log ++ [.sent s.sender data])).length
            rw [written_append, ew, h7]
            simp [written]
          · show ∃ fr, written (log ++ [.sent s.sender data]) = _ ∧ (received (log ++ [.sent s.sender data])).map _ = _ ∧ _
            have e1 : written (log ++ [.sent s.sender data]) = written s.log := by rw [written_append, ew]; simp [written]
            have e2 : received (log ++ [.sent s.sender data]) = received s.log := by rw [received_append, er]; simp [received]
            rw [e1, e2]
            exact hfr
          · show s.sender = (last (log ++ [.sent s.sender data])).getD ⟨0, 0⟩
            rw [last_append _ _ (by simp [received]), el, hlast]
            rfl
          · apply peers_append _ _ _ hpe
            intro q d hq
            cases hq
            exact Or.inr (by rw [el]; exact hlast)
        · have : datagramSend w s.sender data log = (w.send log s.sender data, log) := by
            unfold datagramSend; rw [if_neg hport]; simp only []; rw [if_neg hr]
          rw [this, if_pos (by simp only []; omega)] at h
          cases h
    cases hrole : c.role with
    | server =>
      rw [hrole] at h
      exact hfin s.log rfl rfl rfl h9 (fun x hx => Or.inl hx) (fun _ => by unfold copies; rw [hrole]; simp) h
    | client =>
      rw [hrole] at h
      simp only [] at h
      by_cases hps : c.service.port ≠ 0#16 ∧ 0 < w.send s.log c.service data
      · have : datagramSend w c.service data s.log = (w.send s.log c.service data, s.log ++ [.sent c.service data]) := by
          unfold datagramSend; rw [if_neg hps.1]; simp only []; rw [if_pos hps.2]
        rw [this] at h
        refine hfin (s.log ++ [.sent c.service data]) ?_ ?_ ?_ ?_ ?_ ?_ h
        · rw [received_append]; simp [received]
        · rw [written_append]; simp [written]
        · exact last_append _ _ (by simp [received])
        · apply peers_append _ _ _ h9
          intro q d hq
          cases hq
          exact Or.inl ⟨hrole, rfl⟩
        · intro x hx
          rw [sent_append] at hx
          rcases List.mem_append.mp hx with hx | hx
          · exact Or.inl hx
          · simp only [sent, List.filterMap_cons, List.filterMap_nil, List.mem_singleton] at hx
            exact Or.inr (by rw [hx])
        · intro _
          rw [sent_append]; unfold copies; rw [hrole]; simp [sent]
      · have : (datagramSend w c.service data s.log).2 = s.log := by
          unfold datagramSend
          by_cases hp : c.service.port = 0#16
          · rw [if_pos hp]
          · rw [if_neg hp]
            simp only []
            rw [if_neg (fun h => hps ⟨hp, h⟩)]
        rw [this] at h
        refine hfin s.log rfl rfl rfl h9 (fun x hx => Or.inl hx) (fun hserve => ?_) h
        exact absurd ⟨(hserve hrole).1, (hserve hrole).2 s.log data⟩ hps

theorem step_inv (w : World) (c : Config) (memory past : List Byte) (hsize : c.size ≤ 65535) (s s' : State) (e : Event) (hi : Inv w c memory past s)
    (h : step w c s e = .running s') : Inv w c memory (past ++ arrived [e]) s' := by
  cases e with
  | idle => cases h; simpa [arrived] using hi
  | terminate => cases h
  | lost => cases h
  | arrive o =>
    cases h
    obtain ⟨⟨f, n, processed, done, l, h1, h2, h3, h4⟩, h5, h6, h7⟩ := hi
    refine ⟨⟨f, n, processed, done, l, h1, h2, ?_, h4⟩, h5, h6, h7⟩
    rw [h3]
    simp [arrived]
  | packet q d =>
    have := packet_inv w c memory past hsize s s' q d hi h
    simpa [arrived] using this
  | serial n =>
    have ea : past ++ arrived [Event.serial n] = past := by simp [arrived]
    rw [ea]
    obtain ⟨⟨f, g, processed, done, l, h1, h2, h3, h4, h5, h6, h7⟩, hfr, h8, h9⟩ := hi
    unfold step at h
    simp only [] at h
    unfold reader at h
    simp only [] at h
    generalize hb : (if s.buffer = [] then s.line.take n else s.buffer) = b at h
    generalize hl : (if s.buffer = [] then s.line.drop n else s.line) = line at h
    have hbl : b ++ line = s.buffer ++ s.line := by
      rw [← hb, ← hl]
      by_cases hz : s.buffer = []
      · rw [if_pos hz, if_pos hz, hz, List.take_append_drop]; rfl
      · rw [if_neg hz, if_neg hz]
    by_cases hz : b = []
    · rw [if_pos hz] at h; cases h
    · rw [if_neg hz] at h
      rcases hp : pull s.framer b with _ | ⟨x, t, rest⟩
      · rw [hp] at h; cases h
      · rw [hp] at h
        simp only [] at h
        cases t with
        | false =>
          rw [if_neg (by decide)] at h
          cases h
          obtain ⟨hr, hd⟩ := (pull_digest s.framer b).2.1 x rest hp
          subst hr
          rw [h1, digest_generated, Option.map_eq_some_iff] at hd
          obtain ⟨⟨y, z⟩, hy, hd⟩ := hd
          simp only [Prod.mk.injEq, List.map_eq_nil_iff] at hd
          obtain ⟨hx, rfl⟩ := hd
          refine ⟨⟨y, g, processed ++ b, done, l, hx.symm, ?_, ?_, h4, h5, h6, h7⟩, hfr, h8, h9⟩
          · rw [digest_append, h2]; simp [hy]
          · rw [h3, List.append_assoc, ← hbl]; simp
        | true =>
          rw [if_pos rfl] at h
          obtain ⟨taken, hr, _, hd⟩ := (pull_digest s.framer b).1 x rest hp
          rw [h1, digest_generated, Option.map_eq_some_iff] at hd
          obtain ⟨⟨y, z⟩, hy, hd⟩ := hd
          simp only [Prod.mk.injEq] at hd
          obtain ⟨hx, hz'⟩ := hd
          obtain ⟨v, rfl, hv⟩ : ∃ v, z = [v] ∧ { v with generated := g } = x := by
            cases z with
            | nil => cases hz'
            | cons v z =>
              simp only [List.map_cons, List.cons.injEq, List.map_eq_nil_iff] at hz'
              exact ⟨v, by rw [hz'.2], hz'.1⟩
          have hyv : y = reset v := digest_single hy hx hv
          subst hyv
          refine forward_inv w c memory past { framer := x, sender := s.sender, buffer := rest, input := c.shared, line := line, log := s.log } s' v g (processed ++ taken) done l hv.symm ?_ ?_ h4 h5 h6 h7 hfr h8 h9 h
          · rw [digest_append, h2]; simp [hy]
          · rw [h3, List.append_assoc, ← hbl, hr]; simp

end Diminuto.Conestoga
