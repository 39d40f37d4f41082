import Verif.FramerProps
import Verif.FramerGet

/-!
# Property C181: what a framer says about itself and about the far end
-/

namespace Diminuto.Framer

/-- C181: a framer says that it is in a terminal state exactly if no octet can take it out of this state. -/
theorem terminal_stays (f : Framer) : isTerminal f = true ↔ ∀ c g, machineByte f c = some g → g.state = f.state := by
  constructor
  · intro h c g hg
    obtain ⟨t, ht⟩ := stuck_step f (by
      revert h
      unfold isTerminal Stuck
      cases f.state <;> simp) c
    rw [ht] at hg
    cases hg
    rfl
  · intro h
    have flag : ∀ s a, transition f.state f.limit .flag = (s, a) → (a = .reset ∨ a = .consume) → s ≠ f.state → False := by
      intro s a ht ha hs
      have hk : kind FLAG = .flag := by decide
      have hm : ∃ g, machineByte f FLAG = some g ∧ g.state = s := by
        unfold machineByte
        rw [hk, ht]
        rcases ha with rfl | rfl
        · exact ⟨_, rfl, rfl⟩
        · exact ⟨_, rfl, rfl⟩
      obtain ⟨g, hg, hgs⟩ := hm
      exact hs (hgs ▸ h _ _ hg)
    have newline : ∀ s, transition f.state f.limit .newline = (s, .consume) → s ≠ f.state → False := by
      intro s ht hs
      have hk : kind NEWLINE = .newline := by decide
      have hm : ∃ g, machineByte f NEWLINE = some g ∧ g.state = s := by
        unfold machineByte
        rw [hk, ht]
        exact ⟨_, rfl, rfl⟩
      obtain ⟨g, hg, hgs⟩ := hm
      exact hs (hgs ▸ h _ _ hg)
    unfold isTerminal
    cases hf : f.state <;> simp only [Bool.false_eq_true]
    case flag => exact newline .invalid (by rw [hf]; rfl) (by rw [hf]; decide)
    case reset => exact flag .flag .reset (by rw [hf]; rfl) (Or.inl rfl) (by rw [hf]; decide)
    case newline => exact flag .flag .reset (by rw [hf]; rfl) (Or.inl rfl) (by rw [hf]; decide)
    case kermit => exact flag .flag .reset (by rw [hf]; rfl) (Or.inl rfl) (by rw [hf]; decide)
    case length => exact flag .flag .reset (by rw [hf]; rfl) (Or.inl rfl) (by rw [hf]; decide)
    case sequence => exact flag .flag .reset (by rw [hf]; rfl) (Or.inl rfl) (by rw [hf]; decide)
    case fletcher => exact flag .flag .reset (by rw [hf]; rfl) (Or.inl rfl) (by rw [hf]; decide)
    case payload => exact flag .flag .reset (by rw [hf]; rfl) (Or.inl rfl) (by rw [hf]; decide)
    all_goals exact flag .abort .consume (by rw [hf]; rfl) (Or.inr rfl) (by rw [hf]; decide)

/-- C181: a framer that says that there is an error is in a terminal state and has no frame; one that is in a terminal state has a frame, or an error, or is idle. -/
theorem terminal_kinds (f : Framer) : (isError f = true → isTerminal f = true ∧ isComplete f = false) ∧ (isTerminal f = true ↔ isComplete f = true ∨ isError f = true ∨ f.state = .idle) := by
  unfold isError isTerminal isComplete
  cases f.state <;> simp

/-- C181: after a valid frame that fits its payload is what the framer offers; at the end of the stream it offers nothing, and says that there is an error. -/
theorem offers (f : Framer) (hb : f.size ≤ f.buffer.length) (wire payload : List Byte) (seq : BitVec 16) (hf : IsFrame wire payload seq) (hn : payload.length ≤ f.size) :
    (∃ g b, feed (reset f) wire = some g ∧ getLength g = payload.length ∧ getBuffer g = some b ∧ b.take payload.length = payload ∧ isError g = false) ∧
    ∃ g, machine f none = some g ∧ getLength g = -1 ∧ getBuffer g = none ∧ isError g = true := by
  obtain ⟨g, h1, h2, h3, h4, _⟩ := framer_accepts_valid f hb wire payload seq hf hn
  refine ⟨⟨g, g.buffer, h1, ?_, ?_, ?_, ?_⟩, _, rfl, rfl, rfl, rfl⟩
  · unfold getLength isComplete
    simp [h2, h4]
  · unfold getBuffer isComplete
    simp [h2]
  · exact h3
  · unfold isError
    rw [h2]

/-- C181: before the first frame a framer says that nothing has happened. -/
theorem fresh (buffer : List Byte) (size : Nat) : let f := init buffer size
    [didRollover f, didFarEnd f, didNearEnd f, isComplete f, isTerminal f, isError f] = [false, false, false, false, false, false] ∧ getMissing f = 0#16 ∧ getDuplicated f = 0#16 ∧ getLength f = -1 ∧ getBuffer f = none := by
  exact ⟨rfl, (by decide : 65535#16 - 1#16 - 65534#16 = 0#16), (by decide : 65534#16 + 1#16 - 65535#16 = 0#16), rfl, rfl⟩

/-- The numbers of frames are natural numbers modulo 65536. -/
theorem number_max (n : Nat) : (65535#16 + BitVec.ofNat 16 n == 65535#16) = decide (n % 65536 = 0) := by
  rw [Bool.eq_iff_iff, beq_iff_eq, decide_eq_true_iff, ← BitVec.toNat_inj]
  simp only [BitVec.toNat_add, BitVec.toNat_ofNat]
  omega

theorem number_zero (n : Nat) : (BitVec.ofNat 16 n == 0#16) = decide (n % 65536 = 0) := by
  rw [Bool.eq_iff_iff, beq_iff_eq, decide_eq_true_iff, ← BitVec.toNat_inj]
  simp only [BitVec.toNat_ofNat]

/-- The last two numbers after one frame more than those that have been received. -/
theorem received (f : Framer) (hb : f.size ≤ f.buffer.length) (n : Nat) (hs : f.sequence = 65535#16 + BitVec.ofNat 16 n) (wire payload : List Byte) (seq : BitVec 16) (hf : IsFrame wire payload seq) (hn : payload.length ≤ f.size) :
    ∃ g, feed (reset f) wire = some g ∧ (g.previous == 65535#16) = decide (n % 65536 = 0) ∧ g.sequence = seq := by
  obtain ⟨g, h1, _, _, _, h5, h6, _⟩ := framer_accepts_valid f hb wire payload seq hf hn
  exact ⟨g, h1, by rw [h6, hs, number_max], h5⟩

/-- The receiver after frames that have the numbers zero, one and so on. -/
theorem consecutive (buffer : List Byte) (size : Nat) (hb : size ≤ buffer.length) (frames : List (List Byte × List Byte)) :
    (∀ i, ∀ h : i < frames.length, IsFrame frames[i].1 frames[i].2 (BitVec.ofNat 16 i) ∧ frames[i].2.length ≤ size) →
    ∃ f, receiveAll (init buffer size) (frames.map (·.1)) = some f ∧ f.size = size ∧ f.buffer.length = buffer.length ∧ f.sequence = 65535#16 + BitVec.ofNat 16 frames.length := by
  have key : ∀ (frames : List (List Byte × List Byte)) (f : Framer) (k : Nat), f.size = size → f.buffer.length = buffer.length → f.sequence = 65535#16 + BitVec.ofNat 16 k →
      (∀ i, ∀ h : i < frames.length, IsFrame frames[i].1 frames[i].2 (BitVec.ofNat 16 (k + i)) ∧ frames[i].2.length ≤ size) →
      ∃ g, receiveAll f (frames.map (·.1)) = some g ∧ g.size = size ∧ g.buffer.length = buffer.length ∧ g.sequence = 65535#16 + BitVec.ofNat 16 (k + frames.length) := by
    intro frames
    induction frames with
    | nil => intro f k h1 h2 h3 _; exact ⟨f, rfl, h1, h2, h3⟩
    | cons p rest ih =>
      intro f k h1 h2 h3 hv
      have h0 := hv 0 (by simp)
      obtain ⟨g, e1, _, _, _, e5, _, _, e8, e9, _⟩ := framer_accepts_valid f (by omega) p.1 p.2 _ h0.1 (by rw [h1]; exact h0.2)
      obtain ⟨x, g1, g2, g3, g4⟩ := ih g (k + 1) (by rw [e8, h1]) (by rw [e9, h2]) (by
        rw [e5]
        apply BitVec.eq_of_toNat_eq
        simp only [BitVec.toNat_add, BitVec.toNat_ofNat]
        omega) (by
        intro i hi
        have := hv (i + 1) (by simpa using hi)
        rw [show k + 1 + i = k + (i + 1) by omega]
        simpa using this)
      refine ⟨x, ?_, g2, g3, ?_⟩
      · simp only [List.map_cons, receiveAll, e1, Option.bind_some]
        exact g1
      · rw [g4, List.length_cons, show k + 1 + rest.length = k + (rest.length + 1) by omega]
  intro hv
  obtain ⟨g, h1, h2, h3, h4⟩ := key frames (init buffer size) 0 rfl rfl rfl (by simpa using hv)
  exact ⟨g, h1, h2, h3, by rw [h4, Nat.zero_add]⟩

/-- C181: if the far end sends one frame more, after any number of frames that have all arrived since both ends were started, the framer says that the far end has rolled over exactly if the number of the frame is a multiple of 65536, and it never says that one of the ends has been restarted. -/
theorem continues (buffer : List Byte) (size : Nat) (hb : size ≤ buffer.length) (frames : List (List Byte × List Byte))
    (hv : ∀ i, ∀ h : i < frames.length, IsFrame frames[i].1 frames[i].2 (BitVec.ofNat 16 i) ∧ frames[i].2.length ≤ size)
    (wire payload : List Byte) (hf : IsFrame wire payload (BitVec.ofNat 16 frames.length)) (hn : payload.length ≤ size) :
    ∃ f g, receiveAll (init buffer size) (frames.map (·.1)) = some f ∧ feed (reset f) wire = some g ∧
      didRollover g = decide (frames.length % 65536 = 0) ∧ didFarEnd g = false ∧ didNearEnd g = false := by
  obtain ⟨f, h1, h2, h3, h4⟩ := consecutive buffer size hb frames hv
  obtain ⟨g, g1, g2, g3⟩ := received f (by omega) frames.length h4 wire payload _ hf (by omega)
  refine ⟨f, g, h1, g1, ?_⟩
  unfold didRollover didFarEnd didNearEnd bne
  rw [g2, g3, number_zero]
  cases decide (frames.length % 65536 = 0) <;> simp

/-- C181: if the far end is restarted and sends a frame, after any number of frames that have all arrived, the framer says that the far end has been restarted, unless the number of the frames is a multiple of 65536, in which case it says that it has rolled over. -/
theorem farend_restarts (buffer : List Byte) (size : Nat) (hb : size ≤ buffer.length) (frames : List (List Byte × List Byte))
    (hv : ∀ i, ∀ h : i < frames.length, IsFrame frames[i].1 frames[i].2 (BitVec.ofNat 16 i) ∧ frames[i].2.length ≤ size)
    (wire payload : List Byte) (hf : IsFrame wire payload 0#16) (hn : payload.length ≤ size) :
    ∃ f g, receiveAll (init buffer size) (frames.map (·.1)) = some f ∧ feed (reset f) wire = some g ∧
      didFarEnd g = decide (frames.length % 65536 ≠ 0) ∧ didRollover g = decide (frames.length % 65536 = 0) ∧ didNearEnd g = false := by
  obtain ⟨f, h1, h2, h3, h4⟩ := consecutive buffer size hb frames hv
  obtain ⟨g, g1, g2, g3⟩ := received f (by omega) frames.length h4 wire payload _ hf (by omega)
  refine ⟨f, g, h1, g1, ?_⟩
  unfold didRollover didFarEnd didNearEnd bne
  rw [g2, g3]
  by_cases h : frames.length % 65536 = 0 <;> simp [h]

/-- C181: if the near end is restarted, the framer says so after the next frame, unless the number of this frame is a multiple of 65536, in which case it says that the far end has rolled over. -/
theorem nearend_restarts (buffer : List Byte) (size : Nat) (hb : size ≤ buffer.length) (n : Nat) (wire payload : List Byte) (hf : IsFrame wire payload (BitVec.ofNat 16 n)) (hn : payload.length ≤ size) :
    ∃ g, feed (init buffer size) wire = some g ∧ didNearEnd g = decide (n % 65536 ≠ 0) ∧ didRollover g = decide (n % 65536 = 0) ∧ didFarEnd g = false := by
  obtain ⟨g, g1, g2, g3⟩ := received (init buffer size) hb 0 rfl wire payload _ hf hn
  refine ⟨g, g1, ?_⟩
  unfold didRollover didFarEnd didNearEnd bne
  rw [g2, g3, number_zero]
  by_cases h : n % 65536 = 0 <;> simp [h]

/-- Two frames, and one after the far end has been restarted. -/
example :
    let send (s : Framer) := (writer s [0x41]).getD ([], s)
    let (w1, s1) := send (init [] 0)
    let (w2, _) := send s1
    (receiveAll (init [0#8] 1) [w1, w2, w1]).map (fun g => (didRollover g, didFarEnd g, didNearEnd g)) = some (false, true, false) ∧
      (receiveAll (init [0#8] 1) [w2]).map (fun g => (didRollover g, didFarEnd g, didNearEnd g)) = some (false, false, true) := by
  decide +kernel

/-- C181, false of the first frame: the framer says that the far end has rolled over.  False also if a frame is lost where the numbers begin again: without a restart the framer says that the far end, or that the near end, has been restarted. -/
theorem rollover_counterexample :
    let send (s : Framer) := (writer s [0x41]).getD ([], s)
    let (w1, _) := send (init [] 0)
    let (u1, t1) := send { init [] 0 with generated := 65533#16 }
    let (u2, t2) := send t1
    let (u3, t3) := send t2
    let (u4, _) := send t3
    (receiveAll (init [0#8] 1) [w1]).map didRollover = some true ∧ (receiveAll (init [0#8] 1) [u1, u3]).map didFarEnd = some true ∧ (receiveAll (init [0#8] 1) [u1, u2, u4]).map didNearEnd = some true := by
  decide +kernel

end Diminuto.Framer
