import Verif.Framer
import Verif.FletcherLemmas

/-!
# Helper lemmas on the Framer model

The invariant relates the framer to the octets received since the last FLAG.
-/

namespace Diminuto.Framer

/-! ## Octet stuffing, as a relation -/

/-- `Stuffed w d`: the wire octets `w` carry the data octets `d`. -/
inductive Stuffed : List Byte → List Byte → Prop
  | nil : Stuffed [] []
  | plain (c : Byte) (w d : List Byte) : kind c = .other → Stuffed w d → Stuffed (c :: w) (c :: d)
  | esc (c : Byte) (w d : List Byte) : kind c = .other → Stuffed w d →
      Stuffed (ESCAPE :: c :: w) ((c ^^^ MASK) :: d)

theorem Stuffed.append {w d w' d' : List Byte} (h : Stuffed w d) (h' : Stuffed w' d') :
    Stuffed (w ++ w') (d ++ d') := by
  induction h with
  | nil => exact h'
  | plain c w d hc _ ih => exact .plain c _ _ hc ih
  | esc c w d hc _ ih => exact .esc c _ _ hc ih

theorem Stuffed.snoc_plain {w d : List Byte} (h : Stuffed w d) {c : Byte} (hc : kind c = .other) :
    Stuffed (w ++ [c]) (d ++ [c]) := h.append (.plain c _ _ hc .nil)

theorem Stuffed.snoc_esc {w d : List Byte} (h : Stuffed w d) {c : Byte} (hc : kind c = .other) :
    Stuffed (w ++ [ESCAPE] ++ [c]) (d ++ [c ^^^ MASK]) := by
  rw [List.append_assoc]
  exact h.append (.esc c _ _ hc .nil)

theorem kind_other (c : Byte) : kind c = .other ↔ control c = false := by
  revert c; decide +kernel

theorem kind_escaped : ∀ c : Byte, control c = true → kind (c ^^^ MASK) = .other := by
  decide +kernel

theorem mask_mask (c : Byte) : c ^^^ MASK ^^^ MASK = c := by
  revert c; decide +kernel

theorem stuffed_emit (data : List Byte) : Stuffed (emit data) data := by
  induction data with
  | nil => exact .nil
  | cons c rest ih =>
    unfold emit at ih ⊢
    rw [List.flatMap_cons]
    cases hc : control c
    · simp only [Bool.false_eq_true, if_false]
      exact .plain c _ _ ((kind_other c).mpr hc) ih
    · simp only [if_true]
      have := Stuffed.esc (c ^^^ MASK) _ _ (kind_escaped c hc) ih
      rw [mask_mask] at this
      exact this

/-! ## The phases of reception -/

/-- Receiving the length field; `d` is what has been received. -/
def LenP (f : Framer) (d : List Byte) : Prop :=
  f.crc = 0#16 ∧
  ((f.here = (.length0, 0) ∧ f.limit = 2 ∧ d = []) ∨
   (f.here = (.length0, 1) ∧ f.limit = 1 ∧ d = [f.length0.1]))

/-- Receiving the sequence field. -/
def SeqP (f : Framer) (d : List Byte) : Prop :=
  f.crc = 0#16 ∧ (⟨f.a, f.b⟩ : Fletcher.State) = Fletcher.run ⟨0#8, 0#8⟩ [f.length0.1, f.length0.2] ∧
  ((f.here = (.sequence0, 0) ∧ f.limit = 2 ∧ d = [f.length0.1, f.length0.2]) ∨
   (f.here = (.sequence0, 1) ∧ f.limit = 1 ∧ d = [f.length0.1, f.length0.2, f.sequence0.1]))

/-- Receiving the checksum field. -/
def SumP (f : Framer) (d : List Byte) : Prop :=
  f.crc = 0#16 ∧ (⟨f.a, f.b⟩ : Fletcher.State) = Fletcher.run ⟨0#8, 0#8⟩
    [f.length0.1, f.length0.2, f.sequence0.1, f.sequence0.2] ∧
  ((f.here = (.sum, 0) ∧ f.limit = 2 ∧
      d = [f.length0.1, f.length0.2, f.sequence0.1, f.sequence0.2]) ∨
   (f.here = (.sum, 1) ∧ f.limit = 1 ∧
      d = [f.length0.1, f.length0.2, f.sequence0.1, f.sequence0.2, f.sum.1]))

/-- The six header octets, after the fields have been put in host order. -/
def hdr (f : Framer) : List Byte :=
  [f.length0.2, f.length0.1, f.sequence0.2, f.sequence0.1, f.a, f.b]

/-- The header has been verified. -/
def HdrOk (f : Framer) : Prop :=
  (⟨f.a, f.b⟩ : Fletcher.State) = Fletcher.run ⟨0#8, 0#8⟩
    [f.length0.2, f.length0.1, f.sequence0.2, f.sequence0.1] ∧
  value16 f.length0 ≤ f.size

/-- Receiving the payload, `n` octets received so far. -/
def PayP (f : Framer) (d : List Byte) : Prop :=
  HdrOk f ∧ ∃ n, n < value16 f.length0 ∧ f.here = (.buffer, n) ∧ f.limit = value16 f.length0 - n ∧
    d = hdr f ++ f.buffer.take n

/-- The payload has been received; `d` is header and payload. -/
def Got (f : Framer) (d : List Byte) : Prop :=
  HdrOk f ∧ d = hdr f ++ f.buffer.take (value16 f.length0) ∧
  f.crc = Kermit.kermit16 (f.buffer.take (value16 f.length0)) 0#16

/-- Receiving the CRC characters; `k` is those received so far. -/
def KerP (f : Framer) (d k : List Byte) : Prop :=
  Got f d ∧
  ((f.here = (.check, 0) ∧ f.limit = 3 ∧ k = []) ∨
   (f.here = (.check, 1) ∧ f.limit = 2 ∧ k = [f.check.1]) ∨
   (f.here = (.check, 2) ∧ f.limit = 1 ∧ k = [f.check.1, f.check.2.1]))

/-- The CRC has been verified. -/
def NewP (f : Framer) (d k : List Byte) : Prop :=
  Got f d ∧ k = [f.check.1, f.check.2.1, f.check.2.2] ∧
  Kermit.firstIsValid f.check.1 = true ∧ Kermit.secondIsValid f.check.2.1 = true ∧
  Kermit.thirdIsValid f.check.2.2 = true ∧
  Kermit.chars2crc f.check.1 f.check.2.1 f.check.2.2 = f.crc

/-- Data octets assembled so far, when the framer is expecting a data octet. -/
def Prog (f : Framer) (d : List Byte) : Prop :=
  ((f.state = .flag ∧ d = [] ∨ f.state = .length ∧ d ≠ []) ∧ LenP f d) ∨
  (f.state = .sequence ∧ SeqP f d) ∨
  (f.state = .fletcher ∧ SumP f d) ∨
  (f.state = .payload ∧ PayP f d)

/-- The escaped variant of a data state. -/
def escOf : St → St
  | .flag => .lengthEscaped
  | .length => .lengthEscaped
  | .sequence => .sequenceEscaped
  | .fletcher => .fletcherEscaped
  | .payload => .payloadEscaped
  | s => s

/-- What does not change while a frame is received. -/
def Frame (f f' : Framer) : Prop :=
  f'.size = f.size ∧ f'.buffer.length = f.buffer.length ∧ f'.sequence = f.sequence ∧
  f'.previous = f.previous ∧ f'.generated = f.generated ∧ f'.length = f.length ∧
  f'.buffer.drop f.size = f.buffer.drop f.size

theorem Frame.refl (f : Framer) : Frame f f := ⟨rfl, rfl, rfl, rfl, rfl, rfl, rfl⟩

theorem Frame.trans {f g h : Framer} (a : Frame f g) (b : Frame g h) : Frame f h := by
  obtain ⟨a1, a2, a3, a4, a5, a6, a7⟩ := a
  obtain ⟨b1, b2, b3, b4, b5, b6, b7⟩ := b
  exact ⟨by rw [b1, a1], by rw [b2, a2], by rw [b3, a3], by rw [b4, a4], by rw [b5, a5],
    by rw [b6, a6], by rw [← a7, ← a1, b7]⟩

/-- The announced length of a header, in network order. -/
def announced (d : List Byte) : Nat :=
  (d.getD 1 0#8).toNat + 256 * (d.getD 0 0#8).toNat

/-- A received six-octet header carries the right checksum. -/
def hdrGood (d : List Byte) : Prop :=
  (⟨d.getD 4 0#8, d.getD 5 0#8⟩ : Fletcher.State) = Fletcher.run ⟨0#8, 0#8⟩ (d.take 4)

/-- Outcomes of a data octet: progress, the header check failing, or overflow. -/
def DataOutcome (f f' : Framer) (d : List Byte) : Prop :=
  Frame f f' ∧ (d.length ≤ 6 → f'.buffer = f.buffer) ∧
  (Prog f' d ∨
   (f'.state = .kermit ∧ KerP f' d [] ∧ d.length = 6 + announced d) ∨
   (f'.state = .failed ∧ d.length = 6 ∧ ¬ hdrGood d ∧ f'.buffer = f.buffer) ∨
   (f'.state = .overflow ∧ d.length = 6 ∧ hdrGood d ∧ f.size < announced d ∧
      f'.buffer = f.buffer))

theorem set_take_succ (l : List Byte) (n : Nat) (b : Byte) (h : n < l.length) :
    (l.set n b).take (n + 1) = l.take n ++ [b] := by
  rw [List.take_add_one, List.take_set, List.set_eq_of_length_le (by simp; omega)]
  simp [h]

theorem drop_set_lt (l : List Byte) (n m : Nat) (b : Byte) (h : n < m) :
    (l.set n b).drop m = l.drop m := by
  rw [List.drop_set, if_pos h]

/-- A data octet `b` in a data state, whether it came plain or escaped. -/
theorem data_step (f : Framer) (d : List Byte) (b : Byte) (hb : f.size ≤ f.buffer.length)
    (hp : Prog f d) (tot : Nat) (thr : Bool) :
    ∃ f', act (transition f.state f.limit .other).2 b
        { f with total := tot, state := (transition f.state f.limit .other).1, throttle := thr } =
        some f' ∧ DataOutcome f f' (d ++ [b]) := by
  rcases hp with ⟨hs, hcrc, h⟩ | ⟨hs, hcrc, hab, h⟩ | ⟨hs, hcrc, hab, h⟩ | ⟨hs, ⟨hab, hsz⟩, n, hn, hh, hl, hd⟩
  · rcases h with ⟨hh, hl, hd⟩ | ⟨hh, hl, hd⟩
    · subst hd
      rcases hs with ⟨hs, _⟩ | ⟨_, hne⟩
      · simp only [hs, transition, act, store, hh, hl]
        exact ⟨_, rfl, ⟨rfl, rfl, rfl, rfl, rfl, rfl, rfl⟩, fun _ => rfl,
          Or.inl (Or.inl ⟨Or.inr ⟨rfl, by simp⟩, hcrc, Or.inr ⟨rfl, rfl, rfl⟩⟩)⟩
      · exact absurd rfl hne
    · subst hd
      rcases hs with ⟨_, hne⟩ | ⟨hs, _⟩
      · simp at hne
      · simp only [hs, transition, act, store, hh, hl]
        exact ⟨_, rfl, ⟨rfl, rfl, rfl, rfl, rfl, rfl, rfl⟩, fun _ => rfl,
          Or.inl (Or.inr (Or.inl ⟨rfl, hcrc, rfl, Or.inl ⟨rfl, rfl, rfl⟩⟩))⟩
  · rcases h with ⟨hh, hl, hd⟩ | ⟨hh, hl, hd⟩
    · simp only [hs, transition, act, store, hh, hl]
      exact ⟨_, rfl, ⟨rfl, rfl, rfl, rfl, rfl, rfl, rfl⟩, fun _ => rfl,
        Or.inl (Or.inr (Or.inl ⟨rfl, hcrc, hab, Or.inr ⟨rfl, rfl, by rw [hd]; rfl⟩⟩))⟩
    · simp only [hs, transition, act, store, hh, hl]
      refine ⟨_, rfl, ⟨rfl, rfl, rfl, rfl, rfl, rfl, rfl⟩, fun _ => rfl,
        Or.inl (Or.inr (Or.inr (Or.inl ⟨rfl, hcrc, ?_, Or.inl ⟨rfl, rfl, by rw [hd]; rfl⟩⟩)))⟩
      show Fletcher.run ⟨f.a, f.b⟩ [f.sequence0.1, b] = _
      rw [hab]
      rfl
  · rcases h with ⟨hh, hl, hd⟩ | ⟨hh, hl, hd⟩
    · simp only [hs, transition, act, store, hh, hl]
      exact ⟨_, rfl, ⟨rfl, rfl, rfl, rfl, rfl, rfl, rfl⟩, fun _ => rfl,
        Or.inl (Or.inr (Or.inr (Or.inl ⟨rfl, hcrc, hab, Or.inr ⟨rfl, rfl, by rw [hd]; rfl⟩⟩)))⟩
    · simp only [hs, transition, act, store, hh, hl]
      refine ⟨_, rfl, ?_⟩
      have hd6 : (d ++ [b]).length = 6 := by rw [hd]; rfl
      have hgood : hdrGood (d ++ [b]) ↔ (f.sum.1 = f.a ∧ b = f.b) := by
        unfold hdrGood
        rw [hd]
        show (⟨f.sum.1, b⟩ : Fletcher.State) = Fletcher.run ⟨0#8, 0#8⟩
          [f.length0.1, f.length0.2, f.sequence0.1, f.sequence0.2] ↔ _
        rw [← hab]
        simp
      have hann : announced (d ++ [b]) = value16 (swap f.length0) := by
        rw [hd]; rfl
      simp only [gt_iff_lt, Nat.lt_irrefl, if_false, actFletcher]
      split
      · rename_i hbad
        refine ⟨⟨rfl, rfl, rfl, rfl, rfl, rfl, rfl⟩, fun _ => rfl, Or.inr (Or.inr (Or.inl ⟨rfl, hd6, ?_, rfl⟩))⟩
        rw [hgood]
        rintro ⟨h1, h2⟩
        rcases hbad with hbad | hbad
        · exact hbad h1
        · exact hbad h2
      · rename_i hok
        have hok : f.sum.1 = f.a ∧ b = f.b := by
          constructor
          · exact Classical.byContradiction fun h => hok (Or.inl h)
          · exact Classical.byContradiction fun h => hok (Or.inr h)
        have hd' : d ++ [b] = [f.length0.1, f.length0.2, f.sequence0.1, f.sequence0.2, f.a, f.b] := by
          rw [hd, hok.1, hok.2]; rfl
        split
        · rename_i hz
          have hz : value16 (swap f.length0) = 0 := hz
          refine ⟨⟨rfl, rfl, rfl, rfl, rfl, rfl, rfl⟩, fun _ => rfl, Or.inr (Or.inl ⟨rfl, ⟨⟨⟨hab, ?_⟩, ?_, ?_⟩,
            Or.inl ⟨rfl, rfl, rfl⟩⟩, by rw [hd6, hann, hz]⟩)⟩
          · show value16 (swap f.length0) ≤ f.size
            omega
          · show d ++ [b] = _ ++ f.buffer.take (value16 (swap f.length0))
            rw [hz, hd']; rfl
          · show f.crc = Kermit.kermit16 (f.buffer.take (value16 (swap f.length0))) 0#16
            rw [hz, hcrc]; rfl
        · rename_i hz
          have hz : value16 (swap f.length0) ≠ 0 := hz
          split
          · rename_i hov
            exact ⟨⟨rfl, rfl, rfl, rfl, rfl, rfl, rfl⟩, fun _ => rfl, Or.inr (Or.inr (Or.inr
              ⟨rfl, hd6, hgood.mpr hok, by rw [hann]; exact hov, rfl⟩))⟩
          · rename_i hov
            have hov : ¬ value16 (swap f.length0) > f.size := hov
            refine ⟨⟨rfl, rfl, rfl, rfl, rfl, rfl, rfl⟩, fun _ => rfl, Or.inl (Or.inr (Or.inr (Or.inr
              ⟨rfl, ⟨hab, ?_⟩, 0, ?_, rfl, rfl, ?_⟩)))⟩
            · show value16 (swap f.length0) ≤ f.size
              omega
            · show 0 < value16 (swap f.length0)
              omega
            · rw [hd']; rfl
  · have hn' : n < f.buffer.length := by omega
    have hlong : ¬ (d ++ [b]).length ≤ 6 := by rw [hd]; simp [hdr]
    have hfr : ∀ g : Framer, g.size = f.size → g.buffer = f.buffer.set n b →
        g.sequence = f.sequence → g.previous = f.previous → g.generated = f.generated →
        g.length = f.length → Frame f g := by
      intro g g1 g2 g3 g4 g5 g6
      exact ⟨g1, by rw [g2]; simp, g3, g4, g5, g6, by rw [g2, drop_set_lt _ _ _ _ (by omega)]⟩
    by_cases hlim : f.limit > 1
    · simp only [hs, transition, if_pos hlim, act, store, hh, if_pos hn',
        if_neg (show ¬ f.limit = 0 by omega)]
      refine ⟨_, rfl, hfr _ rfl rfl rfl rfl rfl rfl, fun h => absurd h hlong, Or.inl (Or.inr (Or.inr (Or.inr
        ⟨rfl, ⟨hab, hsz⟩, n + 1, ?_, rfl, ?_, ?_⟩)))⟩
      · show n + 1 < value16 f.length0
        omega
      · show f.limit - 1 = value16 f.length0 - (n + 1)
        omega
      · show d ++ [b] = hdr f ++ (f.buffer.set n b).take (n + 1)
        rw [set_take_succ _ _ _ hn', hd, List.append_assoc]
    · have hn1 : value16 f.length0 = n + 1 := by omega
      simp only [hs, transition, if_neg hlim, act, store, hh, if_pos hn',
        if_neg (show ¬ f.limit = 0 by omega), Option.bind_some, actPayload]
      rw [if_pos (by simp; omega)]
      have hann : announced (d ++ [b]) = value16 f.length0 := by
        rw [hd]; rfl
      have hdd : d ++ [b] = hdr f ++ (f.buffer.set n b).take (value16 f.length0) := by
        rw [hn1, set_take_succ _ _ _ hn', hd, List.append_assoc]
      refine ⟨_, rfl, hfr _ rfl rfl rfl rfl rfl rfl, fun h => absurd h hlong, Or.inr (Or.inl
        ⟨rfl, ⟨⟨⟨hab, hsz⟩, hdd, rfl⟩, Or.inl ⟨rfl, rfl, rfl⟩⟩, ?_⟩)⟩
      rw [hann, hdd]
      simp [hdr]; omega

/-! ## One octet in every phase -/

/-- In the middle of an escape sequence. -/
def EscProg (f : Framer) (d : List Byte) : Prop :=
  ∃ s, f.state = escOf s ∧ Prog { f with state := s } d

theorem Prog.state_cases {f : Framer} {d : List Byte} (h : Prog f d) :
    f.state = .flag ∨ f.state = .length ∨ f.state = .sequence ∨ f.state = .fletcher ∨
      f.state = .payload := by
  rcases h with ⟨⟨h, _⟩ | ⟨h, _⟩, _⟩ | ⟨h, _⟩ | ⟨h, _⟩ | ⟨h, _⟩ <;> simp [h]

theorem Prog.length_lt {f : Framer} {d : List Byte} (h : Prog f d) (hb : f.size ≤ f.buffer.length) :
    d.length < 6 ∨ (6 ≤ d.length ∧ d.length < 6 + announced d) := by
  rcases h with ⟨_, _, h⟩ | ⟨_, _, _, h⟩ | ⟨_, _, _, h⟩ | ⟨_, ⟨_, hsz⟩, n, hn, _, _, hd⟩
  · rcases h with ⟨_, _, hd⟩ | ⟨_, _, hd⟩ <;> simp [hd]
  · rcases h with ⟨_, _, hd⟩ | ⟨_, _, hd⟩ <;> simp [hd]
  · rcases h with ⟨_, _, hd⟩ | ⟨_, _, hd⟩ <;> simp [hd]
  · right
    have ha : announced d = value16 f.length0 := by rw [hd]; rfl
    have hl : d.length = 6 + n := by rw [hd]; simp [hdr]; omega
    omega

theorem plain_step (f : Framer) (d : List Byte) (hb : f.size ≤ f.buffer.length) (hp : Prog f d)
    (c : Byte) (hc : kind c = .other) :
    ∃ f', machineByte f c = some f' ∧ DataOutcome f f' (d ++ [c]) := by
  have he : escaped f.state = false := by
    rcases hp.state_cases with h | h | h | h | h <;> rw [h] <;> rfl
  unfold machineByte
  simp only [hc, he, Bool.false_and, Bool.false_eq_true, if_false]
  exact data_step f d c hb hp _ _

theorem escape_step (f : Framer) (d : List Byte) (hp : Prog f d) :
    ∃ f', machineByte f ESCAPE = some f' ∧ EscProg f' d ∧ Frame f f' ∧ f'.buffer = f.buffer := by
  have hk : kind ESCAPE = .escape := by decide
  have ht : transition f.state f.limit .escape = (escOf f.state, .consume) := by
    rcases hp.state_cases with h | h | h | h | h <;> rw [h] <;> rfl
  unfold machineByte
  rw [hk, ht]
  exact ⟨_, rfl, ⟨f.state, rfl, hp⟩, ⟨rfl, rfl, rfl, rfl, rfl, rfl, rfl⟩, rfl⟩

theorem escaped_step (f : Framer) (d : List Byte) (hb : f.size ≤ f.buffer.length) (hp : EscProg f d)
    (c : Byte) (hc : kind c = .other) :
    ∃ f', machineByte f c = some f' ∧ DataOutcome f f' (d ++ [c ^^^ MASK]) := by
  obtain ⟨s, hs, hp⟩ := hp
  have hcase := hp.state_cases
  have he : escaped f.state = true := by
    rw [hs]
    rcases hcase with h | h | h | h | h <;> (simp only [] at h; rw [h]; rfl)
  have ht : transition f.state f.limit .other = transition s f.limit .other := by
    rw [hs]
    rcases hp with ⟨hss, _, h⟩ | ⟨h, _⟩ | ⟨h, _⟩ | ⟨h, _⟩
    · rcases hss with ⟨h1, h2⟩ | ⟨h1, h2⟩
      · simp only [] at h1
        rcases h with ⟨_, hl, _⟩ | ⟨_, _, hd⟩
        · have hl : f.limit = 2 := hl
          rw [h1, hl]; rfl
        · rw [h2] at hd; simp at hd
      · simp only [] at h1
        rw [h1]; rfl
    · simp only [] at h; rw [h]; rfl
    · simp only [] at h; rw [h]; rfl
    · simp only [] at h; rw [h]; rfl
  unfold machineByte
  simp only [hc, he, ht]
  exact data_step { f with state := s } d (c ^^^ MASK) hb hp _ _

theorem esc_state {f : Framer} {d : List Byte} (hp : EscProg f d) :
    f.state = .lengthEscaped ∨ f.state = .sequenceEscaped ∨ f.state = .fletcherEscaped ∨
      f.state = .payloadEscaped := by
  obtain ⟨s, hs, hp⟩ := hp
  rcases hp.state_cases with h | h | h | h | h <;>
    (simp only [] at h; rw [h] at hs; simp [hs, escOf])

/-- A FLAG in any state in which it (re)starts a frame. -/
theorem flag_step (f : Framer)
    (hs : f.state = .reset ∨ f.state = .length ∨ f.state = .sequence ∨ f.state = .fletcher ∨
      f.state = .payload ∨ f.state = .kermit ∨ f.state = .newline ∨
      (f.state = .flag ∧ Prog f [])) :
    ∃ f', machineByte f FLAG = some f' ∧ Prog f' [] ∧ f'.state = .flag ∧ Frame f f' ∧
      f'.buffer = f.buffer := by
  have hk : kind FLAG = .flag := by decide
  unfold machineByte
  rw [hk]
  have key : ∀ tot thr, Prog (actReset { f with total := tot, state := .flag, throttle := thr }) [] :=
    fun _ _ => Or.inl ⟨Or.inl ⟨rfl, rfl⟩, rfl, Or.inl ⟨rfl, rfl, rfl⟩⟩
  rcases hs with h | h | h | h | h | h | h | ⟨h, hp⟩ <;> rw [h]
  all_goals first
    | exact ⟨_, rfl, key _ _, rfl, ⟨rfl, rfl, rfl, rfl, rfl, rfl, rfl⟩, rfl⟩
    | skip
  refine ⟨_, rfl, ?_, rfl, ⟨rfl, rfl, rfl, rfl, rfl, rfl, rfl⟩, rfl⟩
  rcases hp with ⟨hss, hcrc, hl⟩ | ⟨h', _⟩ | ⟨h', _⟩ | ⟨h', _⟩
  · exact Or.inl ⟨Or.inl ⟨rfl, rfl⟩, hcrc, hl⟩
  · rw [h] at h'; cases h'
  · rw [h] at h'; cases h'
  · rw [h] at h'; cases h'

/-- An ordinary octet while the CRC characters are received. -/
theorem kermit_step (f : Framer) (d k : List Byte) (hs : f.state = .kermit) (hp : KerP f d k)
    (c : Byte) (hc : kind c = .other) :
    ∃ f', machineByte f c = some f' ∧ Frame f f' ∧ f'.buffer = f.buffer ∧
      ((f'.state = .kermit ∧ KerP f' d (k ++ [c]) ∧ k.length < 2) ∨
       (f'.state = .newline ∧ NewP f' d (k ++ [c]) ∧ k.length = 2) ∨
       (f'.state = .failed ∧ k.length = 2 ∧
          ¬ (Kermit.firstIsValid (k.getD 0 0#8) = true ∧ Kermit.secondIsValid (k.getD 1 0#8) = true ∧
             Kermit.thirdIsValid c = true ∧
             Kermit.chars2crc (k.getD 0 0#8) (k.getD 1 0#8) c =
               Kermit.kermit16 (f.buffer.take (value16 f.length0)) 0#16))) := by
  have he : escaped f.state = false := by rw [hs]; rfl
  obtain ⟨hg, h⟩ := hp
  unfold machineByte
  simp only [hc, he, Bool.false_and, Bool.false_eq_true, if_false]
  rcases h with ⟨hh, hl, hk⟩ | ⟨hh, hl, hk⟩ | ⟨hh, hl, hk⟩
  · simp only [hs, hl, transition, act, store, hh]
    exact ⟨_, rfl, ⟨rfl, rfl, rfl, rfl, rfl, rfl, rfl⟩, rfl,
      Or.inl ⟨rfl, ⟨hg, Or.inr (Or.inl ⟨rfl, rfl, by rw [hk]; rfl⟩)⟩, by rw [hk]; simp⟩⟩
  · simp only [hs, hl, transition, act, store, hh]
    exact ⟨_, rfl, ⟨rfl, rfl, rfl, rfl, rfl, rfl, rfl⟩, rfl,
      Or.inl ⟨rfl, ⟨hg, Or.inr (Or.inr ⟨rfl, rfl, by rw [hk]; rfl⟩)⟩, by rw [hk]; simp⟩⟩
  · simp only [hs, hl, transition, act, store, hh]
    obtain ⟨hg1, hg2, hg3⟩ := hg
    refine ⟨_, rfl, ?_⟩
    have e0 : k.getD 0 0#8 = f.check.1 := by rw [hk]; rfl
    have e1 : k.getD 1 0#8 = f.check.2.1 := by rw [hk]; rfl
    have e2 : k.length = 2 := by rw [hk]; rfl
    rw [e0, e1, ← hg3]
    unfold actKermit
    simp only []
    split
    · rename_i hv
      exact ⟨⟨rfl, rfl, rfl, rfl, rfl, rfl, rfl⟩, rfl, Or.inr (Or.inr ⟨rfl, e2, fun h => by
        rw [h.1] at hv; simp at hv⟩)⟩
    · rename_i v1
      split
      · rename_i hv
        exact ⟨⟨rfl, rfl, rfl, rfl, rfl, rfl, rfl⟩, rfl, Or.inr (Or.inr ⟨rfl, e2, fun h => by
          rw [h.2.1] at hv; simp at hv⟩)⟩
      · rename_i v2
        split
        · rename_i hv
          exact ⟨⟨rfl, rfl, rfl, rfl, rfl, rfl, rfl⟩, rfl, Or.inr (Or.inr ⟨rfl, e2, fun h => by
            rw [h.2.2.1] at hv; simp at hv⟩)⟩
        · rename_i v3
          split
          · rename_i hv
            exact ⟨⟨rfl, rfl, rfl, rfl, rfl, rfl, rfl⟩, rfl, Or.inr (Or.inr ⟨rfl, e2, fun h =>
              hv h.2.2.2⟩)⟩
          · rename_i v4
            refine ⟨⟨rfl, rfl, rfl, rfl, rfl, rfl, rfl⟩, rfl, Or.inr (Or.inl ⟨rfl,
              ⟨⟨hg1, hg2, hg3⟩, by rw [hk]; rfl, by simpa using v1, by simpa using v2,
                by simpa using v3, ?_⟩, e2⟩)⟩
            exact Classical.byContradiction fun h => v4 h

/-- The closing NEWLINE. -/
theorem newline_step (f : Framer) (d k : List Byte) (hs : f.state = .newline) (hp : NewP f d k)
    (hb : f.size ≤ f.buffer.length) :
    ∃ f', machineByte f NEWLINE = some f' ∧ f'.state = .complete ∧ f'.size = f.size ∧
      f'.buffer.length = f.buffer.length ∧ f'.buffer.drop f.size = f.buffer.drop f.size ∧
      f'.buffer.take (value16 f.length0) = f.buffer.take (value16 f.length0) ∧
      f'.length = value16 f.length0 ∧ f'.sequence = BitVec.ofNat 16 (value16 f.sequence0) ∧
      f'.previous = f.sequence ∧ f'.generated = f.generated ∧
      (value16 f.length0 < f.size → f'.buffer[value16 f.length0]? = some 0#8) ∧
      f'.length0 = f.length0 := by
  have hk : kind NEWLINE = .newline := by decide
  have hsz : value16 f.length0 ≤ f.size := hp.1.1.2
  unfold machineByte
  simp only [hk, hs, transition, act, actTerminate]
  split
  · rename_i hlt
    rw [if_pos (by omega)]
    refine ⟨_, rfl, rfl, rfl, by simp, drop_set_lt _ _ _ _ hlt, ?_, rfl, rfl, rfl, rfl, ?_, rfl⟩
    · show (f.buffer.set (value16 f.length0) 0#8).take (value16 f.length0) = _
      rw [List.take_set, List.set_eq_of_length_le (by simp; omega)]
    · intro _
      show (f.buffer.set (value16 f.length0) 0#8)[value16 f.length0]? = _
      rw [List.getElem?_set_self (by omega)]
  · rename_i hlt
    exact ⟨_, rfl, rfl, rfl, rfl, rfl, rfl, rfl, rfl, rfl, rfl, fun h => absurd h hlt, rfl⟩

end Diminuto.Framer
