import Verif.FramertoolSpec
import Verif.ConestogaLemmas3

/-!
# Lemmas on the tool that passes lines of text over a serial line
-/

namespace Diminuto.Framer

/-- A framer always goes on. -/
theorem digest_total (memory : List Byte) (size : Nat) (hm : size ≤ memory.length) (b : List Byte) : ∀ (ops : List Op) (h : Framer), history (init memory size) ops = some h → ¬ Stuck h.state →
    ∃ y, digest h b = some y := by
  induction b with
  | nil => intro ops h _ _; exact ⟨_, rfl⟩
  | cons c b ih =>
    intro ops h o1 o2
    obtain ⟨g, hg, _⟩ := framer_stays_in_buffer memory size hm (ops ++ [.octet c])
    rw [history_snoc _ _ _ _ o1] at hg
    have hmb : machineByte h c = some g := hg
    obtain ⟨x, t, ht⟩ : ∃ x t, turn h c = some (x, t) := by
      unfold turn
      rw [hmb]
      exact ⟨_, _, rfl⟩
    obtain ⟨x', d', h1⟩ : ∃ x' d', digest h [c] = some (x', d') := by
      rw [digest, ht]
      cases t <;> exact ⟨_, _, rfl⟩
    obtain ⟨⟨ops', q1, q2, q3⟩, _⟩ := digest_history (init memory size) [c] ops h x' d' o1 o2 h1
    obtain ⟨y, hy⟩ := ih _ _ q1 q2
    have : digest h ([c] ++ b) = some (y.1, d' ++ y.2) := by
      rw [digest_append, h1]
      simp [hy]
    exact ⟨_, this⟩

theorem Completed.mono {f0 g : Framer} {a b : List Byte} (h : Completed f0 g a) (hab : a <+: b) : Completed f0 g b := by
  obtain ⟨ops, c, e, h1, h2, h3, h4, h5, h6⟩ := h
  exact ⟨ops, c, e, h1, h2, h3, h4, h5, h6.trans hab⟩

/-- A framer that has completed a frame and has not been reset stays where it is, and each octet completes the frame again. -/
theorem pull_complete (f : Framer) (hs : f.state = .complete) (hl : f.length ≠ 0) (c : Byte) (r : List Byte) :
    ∃ g, pull f (c :: r) = some (g, true, r) ∧ machineByte f c = some g ∧ g.state = .complete ∧ g.length = f.length ∧ g.buffer = f.buffer ∧ g.generated = f.generated := by
  have hm : ∃ g, machineByte f c = some g ∧ g.state = .complete ∧ g.length = f.length ∧ g.buffer = f.buffer ∧ g.generated = f.generated := by
    unfold machineByte
    rw [hs]
    have : ∀ l k, transition .complete l k = (.complete, .consume) := by intro l k; cases k <;> rfl
    rw [this]
    exact ⟨_, rfl, rfl, rfl, rfl, rfl⟩
  obtain ⟨g, h1, h2, h3, h4, h5⟩ := hm
  refine ⟨g, ?_, h1, h2, h3, h4, h5⟩
  have : turn f c = some (g, true) := by
    unfold turn
    rw [h1, Option.map_some, h2]
    simp only []
    rw [if_neg (by rw [h3]; exact hl)]
  rw [pull, this]

end Diminuto.Framer

namespace Diminuto.Framertool

open Framer

theorem written_append (a b : List Entry) : written (a ++ b) = written a ++ written b := List.filterMap_append
theorem shown_append (a b : List Entry) : shown (a ++ b) = shown a ++ shown b := List.filterMap_append

theorem arrived_append (a b : List Event) : arrived (a ++ b) = arrived a ++ arrived b := by
  induction a with
  | nil => rfl
  | cons e a ih => cases e <;> simp [arrived, ih]

theorem typed_append (a b : List Event) : typed (a ++ b) = typed a ++ typed b := by
  induction a with
  | nil => rfl
  | cons e a ih => cases e <;> simp [typed, ih]

/-- What has been written for what has been typed: `text`. -/
structure Inp (c : Config) (text : List Byte) (s : State) : Prop where
  all : ∃ (ls : List (List Byte)) (cur rest : List Byte) (fr : List (List Byte × List Byte × BitVec 16)) (tail : List (List Byte)),
    text = (ls.map (· ++ [0x0a#8])).flatten ++ rest ∧ (∀ l ∈ ls, 0x0a#8 ∉ l) ∧ written s.log = fr.map (·.1) ++ tail ∧ fr.map (·.2.1) = ls.map (message c.size) ∧
    (∀ x ∈ fr, IsFrame x.1 x.2.1 x.2.2 ∧ x.2.1 ≠ [] ∧ x.2.1.length ≤ c.size) ∧ fr.map (·.2.2) = (List.range fr.length).map (BitVec.ofNat 16) ∧
    (s.deveof = false → tail = [] ∧ rest = cur ++ s.keys ∧ 0x0a#8 ∉ cur ∧ s.text = cur.take (c.size - 1) ∧ s.framer.generated = 65535#16 + BitVec.ofNat 16 fr.length) ∧
    (tail = [] ∨ ∃ octets l more k, rest = l ++ 0x0a#8 :: more ∧ 0x0a#8 ∉ l ∧ IsFrame octets (message c.size l) (BitVec.ofNat 16 fr.length) ∧ tail = [octets.take k])

/-- What has been written to the standard output for what has arrived: `past`. -/
structure Dev (c : Config) (memory past : List Byte) (s : State) : Prop where
  sound : ∀ o ∈ shown s.log, ∃ g, Completed (init memory c.size) g past ∧ o <+: g.buffer.take g.length
  exact : ∃ (h : Framer) (processed extra : List Byte) (done : List Framer), digest (init memory c.size) processed = some (h, done) ∧ past = processed ++ extra ∧
    (s.outeof = false → shown s.log = done.map fun g => g.buffer.take g.length) ∧
    (s.deveof = false → s.outeof = false → extra = s.buffer ++ s.line ∧ s.framer = { h with generated := s.framer.generated })
  live : s.deveof = false → ∃ (ops : List Op) (h : Framer), history (init memory c.size) ops = some h ∧ octets ops ++ (s.buffer ++ s.line) = past ∧ s.framer = { h with generated := s.framer.generated } ∧
    (¬ Stuck h.state ∨ (s.outeof = true ∧ h.state = .complete ∧ h.length ≠ 0 ∧ ∃ g, Completed (init memory c.size) g past ∧ h.buffer = g.buffer ∧ h.length = g.length))

theorem start_inp (c : Config) (memory : List Byte) : Inp c [] (start c memory) := by
  refine ⟨[], [], [], [], [], rfl, fun l hl => absurd hl List.not_mem_nil, rfl, rfl, fun x hx => absurd hx List.not_mem_nil, rfl, fun _ => ⟨rfl, rfl, List.not_mem_nil, ?_, rfl⟩, Or.inl rfl⟩
  rw [List.take_nil]; rfl

theorem start_dev (c : Config) (memory : List Byte) : Dev c memory [] (start c memory) :=
  ⟨fun g hg => absurd hg List.not_mem_nil, ⟨init memory c.size, [], [], [], rfl, rfl, fun _ => rfl, fun _ _ => ⟨rfl, rfl⟩⟩, fun _ => ⟨[], init memory c.size, rfl, rfl, rfl, Or.inl (by simp [Stuck, init])⟩⟩

/-- A change of the input side does not change what is known of the device. -/
theorem Dev.same {c : Config} {memory past : List Byte} {s s' : State} (h : Dev c memory past s) (hl : shown s'.log = shown s.log) (ho : s'.outeof = s.outeof) (hd : s'.deveof = false → s.deveof = false)
    (hb : s'.buffer = s.buffer) (hn : s'.line = s.line) (hf : s'.framer = { s.framer with generated := s'.framer.generated }) : Dev c memory past s' := by
  obtain ⟨h0, ⟨x, processed, extra, done, h1, h2, h4, h5⟩, h6⟩ := h
  refine ⟨by rw [hl]; exact h0, ⟨x, processed, extra, done, h1, h2, by rw [hl, ho]; exact h4, ?_⟩, ?_⟩
  · intro d o
    obtain ⟨e1, e2⟩ := h5 (hd d) (by rw [← ho]; exact o)
    refine ⟨by rw [hb, hn]; exact e1, ?_⟩
    rw [hf, e2]
  · intro d
    obtain ⟨ops, y, e0, e1, e2, e3⟩ := h6 (hd d)
    refine ⟨ops, y, e0, by rw [hb, hn]; exact e1, by rw [hf, e2], by rw [ho]; exact e3⟩

/-- The octets of the standard input. -/
theorem take_inv (w : World) (c : Config) (memory past text : List Byte) (hsize : 1 ≤ c.size ∧ c.size ≤ 65535) (held : List Byte) :
    ∀ (s s' : State), take w c held s = some s' → s.deveof = false → Inp c text { s with keys := held ++ s.keys } → Dev c memory past s →
      Inp c text s' ∧ Dev c memory past s' ∧ s'.inpeof = s.inpeof ∧ s'.outeof = s.outeof ∧ s'.broken = s.broken := by
  induction held with
  | nil =>
    intro s s' h hd hi hv
    cases h
    exact ⟨⟨hi.all⟩, hv.same rfl rfl (fun h => h) rfl rfl rfl, rfl, rfl, rfl⟩
  | cons token rest ih =>
    intro s s' h hd hi hv
    obtain ⟨ls, cur, re, fr, tail, a1, a2, a3, a4, a5, a6, a7, a8⟩ := hi
    obtain ⟨b1, b2, b3, b4, b5⟩ := a7 hd
    simp only [] at b1 b2 b3 b4 b5 a3
    subst b1
    rw [List.append_nil] at a3
    rw [take] at h
    have hlen : s.text.length ≤ c.size - 1 := by rw [b4, List.length_take]; omega
    by_cases ht : token = 0x0a#8
    · rw [if_pos ht] at h
      rw [if_neg (by omega)] at h
      by_cases hst : c.strict ∧ s.reading
      · rw [if_pos hst] at h; cases h
      · rw [if_neg hst] at h
        obtain ⟨wire, hw, hf⟩ := (framer_writer_emits_frame s.framer (s.text ++ [0x0a#8])).1 (by simp only [List.length_append, List.length_singleton]; omega)
        simp only [] at h
        rw [hw] at h
        simp only [] at h
        have hmsg : s.text ++ [0x0a#8] = message c.size cur := by unfold message; rw [b4]
        have hn1 : s.framer.generated + 1 = BitVec.ofNat 16 fr.length := by
          rw [b5]
          apply BitVec.eq_of_toNat_eq
          simp [BitVec.toNat_add]
          omega
        rw [hmsg, hn1] at hf
        cases hp : w.put s.log wire with
        | some k =>
          rw [hp] at h
          cases h
          refine ⟨⟨ls, cur, re, fr, [wire.take k], a1, a2, ?_, a4, a5, a6, fun h => (by cases h), Or.inr ⟨wire, cur, rest ++ s.keys, k, ?_, b3, hf, rfl⟩⟩, hv.same ?_ rfl (fun h => (by cases h)) rfl rfl rfl, rfl, rfl, rfl⟩
          · show written (s.log ++ [.wrote (wire.take k)]) = _
            rw [written_append, a3]; simp [written]
          · rw [b2, ht]; simp
          · show shown (s.log ++ [.wrote (wire.take k)]) = _
            rw [shown_append]; simp [shown]
        | none =>
          rw [hp] at h
          simp only [] at h
          have := ih { s with framer := { s.framer with generated := s.framer.generated + 1 }, text := [], log := s.log ++ [.wrote wire] } s' h hd ?_ (hv.same ?_ rfl (fun h => h) rfl rfl rfl)
          · exact this
          · refine ⟨ls ++ [cur], [], rest ++ s.keys, fr ++ [(wire, message c.size cur, BitVec.ofNat 16 fr.length)], [], ?_, ?_, ?_, ?_, ?_, ?_, fun _ => ⟨rfl, rfl, List.not_mem_nil, ?_, ?_⟩, Or.inl rfl⟩
            · rw [a1, b2, ht]; simp
            · intro l hl
              rcases List.mem_append.mp hl with hl | hl
              · exact a2 l hl
              · rw [List.mem_singleton] at hl; rw [hl]; exact b3
            · show written (s.log ++ [.wrote wire]) = _
              rw [written_append, a3]; simp [written]
            · rw [List.map_append, List.map_append, a4]; rfl
            · intro x hx
              rcases List.mem_append.mp hx with hx | hx
              · exact a5 x hx
              · rw [List.mem_singleton] at hx
                subst hx
                refine ⟨hf, by unfold message; simp, ?_⟩
                rw [← hmsg]
                simp only [List.length_append, List.length_singleton]
                omega
            · rw [List.map_append, a6, List.length_append, List.length_singleton, List.range_succ, List.map_append]
              rfl
            · rw [List.take_nil]
            · show s.framer.generated + 1 = _
              rw [b5, List.length_append]
              apply BitVec.eq_of_toNat_eq
              simp [BitVec.toNat_add]
              omega
          · show shown (s.log ++ [.wrote wire]) = _
            rw [shown_append]; simp [shown]
    · rw [if_neg ht] at h
      have hcur : 0x0a#8 ∉ cur ++ [token] := by
        rw [List.mem_append, not_or]
        exact ⟨b3, by rw [List.mem_singleton]; exact fun h => ht h.symm⟩
      have hre : re = (cur ++ [token]) ++ (rest ++ s.keys) := by rw [b2]; simp
      by_cases hl : s.text.length < c.size - 1
      · rw [if_pos hl] at h
        have hc : cur.length < c.size - 1 := by
          rw [b4, List.length_take] at hl
          omega
        have := ih { s with text := s.text ++ [token] } s' h hd ?_ (hv.same rfl rfl (fun h => h) rfl rfl rfl)
        · exact this
        · refine ⟨ls, cur ++ [token], re, fr, [], a1, a2, by simpa using a3, a4, a5, a6, fun _ => ⟨rfl, hre, hcur, ?_, b5⟩, Or.inl rfl⟩
          show s.text ++ [token] = _
          rw [b4, List.take_of_length_le (by omega), List.take_of_length_le (by rw [List.length_append, List.length_singleton]; omega)]
      · rw [if_neg hl] at h
        have := ih s s' h hd ?_ hv
        · exact this
        · refine ⟨ls, cur ++ [token], re, fr, [], a1, a2, by simpa using a3, a4, a5, a6, fun _ => ⟨rfl, hre, hcur, ?_, b5⟩, Or.inl rfl⟩
          show s.text = _
          have : c.size - 1 ≤ cur.length := by
            rw [b4, List.length_take] at hl
            omega
          rw [b4, List.take_append_of_le_length this]

theorem input_inv (w : World) (c : Config) (memory past text : List Byte) (hsize : 1 ≤ c.size ∧ c.size ≤ 65535) (n : Nat) (s s' : State) (h : input w c n s = some s') (hd : s.deveof = false)
    (hi : Inp c text s) (hv : Dev c memory past s) : Inp c text s' ∧ Dev c memory past s' := by
  unfold input at h
  by_cases h1 : s.inpeof
  · rw [if_pos h1] at h; cases h; exact ⟨hi, hv⟩
  · rw [if_neg h1] at h
    by_cases h2 : s.keys.take n = []
    · rw [if_pos h2] at h
      cases h
      exact ⟨⟨hi.all⟩, hv.same rfl rfl (fun h => h) rfl rfl rfl⟩
    · rw [if_neg h2] at h
      have := take_inv w c memory past text hsize (s.keys.take n) { s with keys := s.keys.drop n } s' h hd ?_ (hv.same rfl rfl (fun h => h) rfl rfl rfl)
      · exact ⟨this.1, this.2.1⟩
      · simp only [List.take_append_drop]
        exact hi

/-- The frame of a framer that is known up to the numbers that it has written. -/
theorem single_generated {h x : Framer} {n : BitVec 16} {taken : List Byte} (hd : digest { h with generated := n } taken = some (reset x, [x])) :
    ∃ v, digest h taken = some (reset v, [v]) ∧ x = { v with generated := n } := by
  rw [digest_generated, Option.map_eq_some_iff] at hd
  obtain ⟨⟨y, z⟩, hy, hd⟩ := hd
  simp only [Prod.mk.injEq] at hd
  obtain ⟨hx, hz'⟩ := hd
  cases z with
  | nil => cases hz'
  | cons v z =>
    simp only [List.map_cons, List.cons.injEq, List.map_eq_nil_iff] at hz'
    obtain ⟨hz', rfl⟩ := hz'
    have := Conestoga.digest_single hy hx hz'
    subst this
    exact ⟨v, hy, hz'.symm⟩

theorem device_inv (w : World) (c : Config) (memory past text : List Byte) (n : Nat) (s s' : State) (left : Bool) (h : device w n s = some (s', left))
    (hi : Inp c text s) (hv : Dev c memory past s) : Inp c text s' ∧ Dev c memory past s' ∧ (s'.deveof = true → s.deveof = false → left = true) := by
  unfold device at h
  by_cases hd : s.deveof
  · rw [if_pos hd] at h; cases h; exact ⟨hi, hv, fun _ hf => by rw [hd] at hf; cases hf⟩
  · rw [if_neg hd] at h
    have hd : s.deveof = false := by simpa using hd
    -- the input side
    have inp : ∀ (f : Framer) (buffer line : List Byte) (reading outeof : Bool) (log : List Entry), f.generated = s.framer.generated → written log = written s.log →
        Inp c text { s with framer := f, buffer := buffer, line := line, reading := reading, outeof := outeof, log := log } := by
      intro f buffer line reading outeof log hg hw
      obtain ⟨ls, cur, re, fr, tail, a1, a2, a3, a4, a5, a6, a7, a8⟩ := hi
      refine ⟨ls, cur, re, fr, tail, a1, a2, by rw [← a3]; exact hw, a4, a5, a6, ?_, a8⟩
      intro hd
      obtain ⟨b1, b2, b3, b4, b5⟩ := a7 hd
      exact ⟨b1, b2, b3, b4, by rw [← b5]; exact hg⟩
    obtain ⟨h0, ⟨x, processed, extra, done, h1, h2, h4, h5⟩, h6⟩ := hv
    obtain ⟨ops, y, e0, e1, e2, e3⟩ := h6 hd
    unfold reader at h
    simp only [] at h
    generalize hb : (if s.buffer = [] then s.line.take n else s.buffer) = b at h
    generalize hl : (if s.buffer = [] then s.line.drop n else s.line) = line at h
    have hbl : b ++ line = s.buffer ++ s.line := by
      rw [← hb, ← hl]
      by_cases hz : s.buffer = []
      · rw [if_pos hz, if_pos hz, hz, List.take_append_drop]; rfl
      · rw [if_neg hz, if_neg hz]
    by_cases hz : b = []
    · rw [if_pos hz] at h
      cases h
      refine ⟨?_, ⟨h0, ⟨x, processed, extra, done, h1, h2, h4, fun h => (by cases h)⟩, fun h => (by cases h)⟩, fun _ _ => rfl⟩
      obtain ⟨ls, cur, re, fr, tail, a1, a2, a3, a4, a5, a6, a7, a8⟩ := hi
      exact ⟨ls, cur, re, fr, tail, a1, a2, a3, a4, a5, a6, fun h => (by cases h), a8⟩
    · rw [if_neg hz] at h
      rcases hp : pull s.framer b with _ | ⟨f, t, rest⟩
      · rw [hp] at h; cases h
      · rw [hp] at h
        simp only [] at h
        have hsh : ∀ g, Completed (init memory c.size) g past → ∀ o, o <+: g.buffer.take g.length → ∀ y ∈ shown (s.log ++ [.printed o]), ∃ g, Completed (init memory c.size) g past ∧ y <+: g.buffer.take g.length := by
          intro g hg o ho y hy
          rw [shown_append] at hy
          rcases List.mem_append.mp hy with hy | hy
          · exact h0 y hy
          · simp only [shown, List.filterMap_cons, List.filterMap_nil, List.mem_singleton] at hy
            rw [hy]
            exact ⟨g, hg, ho⟩
        rcases e3 with e3 | ⟨ho, e3, e4, g, hg, e5, e6⟩
        · cases t with
          | false =>
            rw [if_neg (by decide)] at h
            cases h
            obtain ⟨hr, hdg⟩ := (pull_digest s.framer b).2.1 f rest hp
            subst hr
            have hdg' := hdg
            rw [e2, digest_generated, Option.map_eq_some_iff] at hdg
            obtain ⟨⟨y', z⟩, hy, hdg⟩ := hdg
            simp only [Prod.mk.injEq, List.map_eq_nil_iff] at hdg
            obtain ⟨hx, rfl⟩ := hdg
            have hgen : f.generated = s.framer.generated := by rw [← hx]
            obtain ⟨⟨ops', q1, q2, q3⟩, _⟩ := digest_history (init memory c.size) b ops y y' [] e0 e3 hy
            refine ⟨inp _ _ _ _ _ _ hgen rfl, ⟨h0, ?_, fun _ => ⟨_, y', q1, ?_, ?_, Or.inl q2⟩⟩, fun h => by rw [hd] at h; cases h⟩
            · cases ho : s.outeof with
              | true => exact ⟨x, processed, extra, done, h1, h2, fun h => (by cases h), fun _ h => (by cases h)⟩
              | false =>
                obtain ⟨k1, k2⟩ := h5 hd ho
                rw [k2, digest_generated, Option.map_eq_some_iff] at hdg'
                obtain ⟨⟨x', z⟩, hx', hdg'⟩ := hdg'
                simp only [Prod.mk.injEq, List.map_eq_nil_iff] at hdg'
                obtain ⟨hx2, rfl⟩ := hdg'
                refine ⟨x', processed ++ b, line, done, ?_, ?_, fun _ => h4 ho, fun _ _ => ⟨rfl, ?_⟩⟩
                · rw [digest_append, h1]; simp [hx']
                · rw [h2, k1, ← hbl, List.append_assoc]
                · show f = { x' with generated := f.generated }
                  rw [hgen]; exact hx2.symm
            · show octets (ops ++ ops') ++ ([] ++ line) = past
              rw [octets_append, q3, ← e1, ← hbl]; simp
            · show f = { y' with generated := f.generated }
              rw [hgen]; exact hx.symm
          | true =>
            rw [if_pos rfl] at h
            obtain ⟨taken, hr, _, hdg⟩ := (pull_digest s.framer b).1 f rest hp
            have hdg' := hdg
            rw [e2] at hdg
            obtain ⟨v, hv, hfv⟩ := single_generated hdg
            have hgen : f.generated = s.framer.generated := by rw [hfv]
            have hdat : f.buffer.take f.length = v.buffer.take v.length := by rw [hfv]
            have hpast : octets ops ++ taken ++ (rest ++ line) = past := by rw [← e1, ← hbl, hr]; simp
            obtain ⟨⟨ops', q1, q2, q3⟩, qc⟩ := digest_history (init memory c.size) taken ops y (reset v) [v] e0 e3 hv
            have hcomp : Completed (init memory c.size) v past := (qc v (by simp)).mono ⟨_, hpast⟩
            by_cases hlen : f.length > f.buffer.length
            · rw [if_pos hlen] at h; cases h
            · rw [if_neg hlen] at h
              cases hw : w.out s.log (f.buffer.take f.length) with
              | some k =>
                rw [hw] at h
                cases h
                refine ⟨inp _ _ _ _ _ _ hgen (by rw [written_append]; simp [written]), ⟨hsh v hcomp _ (by rw [← hdat]; exact List.take_prefix _ _),
                  ⟨x, processed, extra, done, h1, h2, fun h => (by cases h), fun _ h => (by cases h)⟩, fun _ => ?_⟩, fun h => by rw [hd] at h; cases h⟩
                obtain ⟨tk, ch, e, p1, p2, p3, p4, p5⟩ := pull_last s.framer b f rest hp
                have htt : taken = tk ++ [ch] := by
                  have : taken ++ rest = (tk ++ [ch]) ++ rest := by rw [← hr, p1]; simp
                  exact List.append_cancel_right this
                rw [e2, digest_generated, Option.map_eq_some_iff] at p2
                obtain ⟨⟨e', z⟩, p2, p2'⟩ := p2
                simp only [Prod.mk.injEq, List.map_eq_nil_iff] at p2'
                obtain ⟨rfl, rfl⟩ := p2'
                rw [machineByte_generated, Option.map_eq_some_iff] at p3
                obtain ⟨v', p3, p3'⟩ := p3
                obtain ⟨⟨ops2, r1, r2, r3⟩, _⟩ := digest_history (init memory c.size) tk ops y e' [] e0 e3 p2
                refine ⟨ops ++ ops2 ++ [.octet ch], v', ?_, ?_, ?_, Or.inr ⟨rfl, ?_, ?_, v, hcomp, ?_, ?_⟩⟩
                · rw [history_snoc _ _ _ _ r1]; exact p3
                · show octets (ops ++ ops2 ++ [.octet ch]) ++ (rest ++ line) = past
                  rw [octets_append, octets_append, r3, ← hpast, htt]; simp [octets]
                · show f = { v' with generated := f.generated }
                  rw [← p3']
                · rw [← p4, ← p3']
                · rw [← p3'] at p5; exact p5
                · have : f.buffer = v'.buffer := by rw [← p3']
                  rw [← this, hfv]
                · have : f.length = v'.length := by rw [← p3']
                  rw [← this, hfv]
              | none =>
                rw [hw] at h
                cases h
                refine ⟨inp _ _ _ _ _ _ hgen (by rw [written_append]; simp [written]), ⟨hsh v hcomp _ (by rw [← hdat]; exact List.prefix_refl _), ?_, fun _ => ⟨ops ++ ops', reset v, q1, ?_, ?_, Or.inl q2⟩⟩, fun h => by rw [hd] at h; cases h⟩
                · cases ho : s.outeof with
                  | true => exact ⟨x, processed, extra, done, h1, h2, fun h => (by cases h), fun _ h => (by cases h)⟩
                  | false =>
                    obtain ⟨k1, k2⟩ := h5 hd ho
                    rw [k2] at hdg'
                    obtain ⟨v2, hv2, hfv2⟩ := single_generated hdg'
                    refine ⟨reset v2, processed ++ taken, rest ++ line, done ++ [v2], ?_, ?_, fun _ => ?_, fun _ _ => ⟨rfl, ?_⟩⟩
                    · rw [digest_append, h1]; simp [hv2]
                    · rw [h2, k1, ← hbl, hr]; simp
                    · show shown (s.log ++ [.printed (f.buffer.take f.length)]) = _
                      rw [shown_append, h4 ho, List.map_append]
                      have : f.buffer.take f.length = v2.buffer.take v2.length := by rw [hfv2]
                      rw [this]
                      simp [shown]
                    · show reset f = { reset v2 with generated := (reset f).generated }
                      rw [hfv2]
                      rfl
                · show octets (ops ++ ops') ++ (rest ++ line) = past
                  rw [octets_append, q3, ← hpast]
                · show reset f = { reset v with generated := (reset f).generated }
                  rw [hfv]
                  rfl
        · cases b with
          | nil => exact absurd rfl hz
          | cons ch b =>
            obtain ⟨f', p1, pm, p2, p3, p4, p5⟩ := pull_complete s.framer (by rw [e2]; exact e3) (by rw [e2]; exact e4) ch b
            rw [hp] at p1
            cases p1
            rw [if_pos rfl] at h
            have hdat : f.buffer.take f.length = g.buffer.take g.length := by
              rw [p4, p3, e2]
              show y.buffer.take y.length = _
              rw [e5, e6]
            rw [e2, machineByte_generated, Option.map_eq_some_iff] at pm
            obtain ⟨v', pm, pm'⟩ := pm
            have hpast : octets ops ++ [ch] ++ (rest ++ line) = past := by rw [← e1, ← hbl]; simp
            have hh : history (init memory c.size) (ops ++ [.octet ch]) = some v' := by rw [history_snoc _ _ _ _ e0]; exact pm
            by_cases hlen : f.length > f.buffer.length
            · rw [if_pos hlen] at h; cases h
            · rw [if_neg hlen] at h
              cases hw : w.out s.log (f.buffer.take f.length) with
              | some k =>
                rw [hw] at h
                cases h
                refine ⟨inp _ _ _ _ _ _ p5 (by rw [written_append]; simp [written]), ⟨hsh g hg _ (by rw [← hdat]; exact List.take_prefix _ _),
                  ⟨x, processed, extra, done, h1, h2, fun h => (by cases h), fun _ h => (by cases h)⟩, fun _ => ⟨_, v', hh, ?_, ?_, Or.inr ⟨rfl, ?_, ?_, g, hg, ?_, ?_⟩⟩⟩, fun h => by rw [hd] at h; cases h⟩
                · show octets (ops ++ [.octet ch]) ++ (rest ++ line) = past
                  rw [octets_append, ← hpast]; simp [octets]
                · show f = { v' with generated := f.generated }
                  rw [← pm']
                · rw [← p2, ← pm']
                · have : f.length = v'.length := by rw [← pm']
                  rw [← this, p3, e2]; exact e4
                · have : f.buffer = v'.buffer := by rw [← pm']
                  rw [← this, p4, e2]; exact e5
                · have : f.length = v'.length := by rw [← pm']
                  rw [← this, p3, e2]; exact e6
              | none =>
                rw [hw] at h
                cases h
                refine ⟨inp _ _ _ _ _ _ p5 (by rw [written_append]; simp [written]), ⟨hsh g hg _ (by rw [← hdat]; exact List.prefix_refl _),
                  ⟨x, processed, extra, done, h1, h2, fun h => (by rw [ho] at h; cases h), fun _ h => (by rw [ho] at h; cases h)⟩, fun _ => ⟨ops ++ [.octet ch] ++ [.reset], reset v', ?_, ?_, ?_, Or.inl ?_⟩⟩, fun h => by rw [hd] at h; cases h⟩
                · rw [history_snoc _ _ _ _ hh]; rfl
                · show octets (ops ++ [.octet ch] ++ [.reset]) ++ (rest ++ line) = past
                  rw [octets_append, octets_append, ← hpast]; simp [octets]
                · show reset f = { reset v' with generated := (reset f).generated }
                  rw [← pm']
                  rfl
                · simp [Stuck, reset]

end Diminuto.Framertool
