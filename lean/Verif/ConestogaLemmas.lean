import Verif.ConestogaSpec
import Verif.FramerStreamLemmas

/-!
# Lemmas on the tool that passes datagrams over a serial line
-/

namespace Diminuto.Framer

theorem digest_generated (f : Framer) (n : BitVec 16) (b : List Byte) :
    digest { f with generated := n } b = (digest f b).map (fun x => ({ x.1 with generated := n }, x.2.map fun g => { g with generated := n })) := by
  induction b generalizing f with
  | nil => rfl
  | cons c b ih =>
    simp only [digest]
    rw [turn_generated]
    rcases turn f c with _ | ⟨g, t⟩
    · rfl
    · cases t with
      | true =>
        simp only [Option.map_some]
        have := ih (reset g)
        simp only [reset] at this ⊢
        rw [this, Option.map_map, Option.map_map]
        congr 1
      | false =>
        simp only [Option.map_some]
        exact ih g

/-- Whole frames one after the other. -/
theorem digest_frames (frames : List (List Byte × List Byte × BitVec 16)) (f : Framer) (hb : f.size ≤ f.buffer.length) (hs : f.state = .reset)
    (hv : ∀ x ∈ frames, IsFrame x.1 x.2.1 x.2.2 ∧ x.2.1 ≠ [] ∧ x.2.1.length ≤ f.size) :
    ∃ h done, digest f (frames.map (·.1)).flatten = some (h, done) ∧ done.length = frames.length ∧
      ∀ i (h1 : i < done.length) (h2 : i < frames.length), done[i].total = frames[i].1.length ∧ done[i].buffer.take frames[i].2.1.length = frames[i].2.1 ∧ done[i].buffer.length = f.buffer.length := by
  induction frames generalizing f with
  | nil => exact ⟨f, [], rfl, rfl, fun i h1 => absurd h1 (Nat.not_lt_zero i)⟩
  | cons x frames ih =>
    obtain ⟨hx1, hx2, hx3⟩ := hv x (by simp)
    obtain ⟨g, h1, h2, h3, h4, h5, h6, h7, h8, _⟩ := digest_frame f hb hs x.1 x.2.1 x.2.2 hx1 hx3 hx2
    obtain ⟨h, done, a1, a2, a3⟩ := ih (reset g) (by show g.size ≤ g.buffer.length; omega) rfl (fun y hy => by
      obtain ⟨b1, b2, b3⟩ := hv y (by simp [hy])
      exact ⟨b1, b2, by show _ ≤ g.size; omega⟩)
    refine ⟨h, g :: done, ?_, by simp [a2], ?_⟩
    · rw [List.map_cons, List.flatten_cons, digest_append, h1]
      simp only [Option.bind_some]
      rw [a1]
      rfl
    · intro i l1 l2
      cases i with
      | zero => exact ⟨h6, h4, h8⟩
      | succ i =>
        simp only [List.getElem_cons_succ]
        obtain ⟨c1, c2, c3⟩ := a3 i (by simpa using l1) (by simpa using l2)
        exact ⟨c1, c2, by rw [c3]; exact h8⟩

/-- A framer that has just completed a frame that is not empty. -/
def Completed (f0 : Framer) (g : Framer) (bytes : List Byte) : Prop :=
  ∃ ops c e, history f0 ops = some e ∧ ¬ Stuck e.state ∧ machineByte e c = some g ∧ g.state = .complete ∧ g.length ≠ 0 ∧ octets ops ++ [c] <+: bytes

/-- The history behind the frames. -/
theorem digest_history (f0 : Framer) (bytes : List Byte) : ∀ (hist : List Op) (f h : Framer) (done : List Framer), history f0 hist = some f → ¬ Stuck f.state →
    digest f bytes = some (h, done) → (∃ ops, history f0 (hist ++ ops) = some h ∧ ¬ Stuck h.state ∧ octets ops = bytes) ∧ ∀ g ∈ done, Completed f0 g (octets hist ++ bytes) := by
  induction bytes with
  | nil =>
    intro hist f h done hh hs hd
    simp only [digest, Option.some.injEq, Prod.mk.injEq] at hd
    obtain ⟨rfl, rfl⟩ := hd
    exact ⟨⟨[], by rw [List.append_nil]; exact hh, hs, rfl⟩, fun g hg => absurd hg List.not_mem_nil⟩
  | cons c bytes ih =>
    intro hist f h done hh hs hd
    rw [digest] at hd
    rcases ht : turn f c with _ | ⟨x, t⟩
    · rw [ht] at hd; cases hd
    · rw [ht] at hd
      unfold turn at ht
      rw [Option.map_eq_some_iff] at ht
      obtain ⟨y, hy, ht⟩ := ht
      have hstep : history f0 (hist ++ [.octet c]) = some y := by
        rw [history_snoc _ _ _ _ hh]; exact hy
      have hreset : history f0 (hist ++ [.octet c, .reset]) = some (reset y) := by
        rw [show hist ++ [Op.octet c, .reset] = (hist ++ [.octet c]) ++ [.reset] by simp, history_snoc _ _ _ _ hstep]
        rfl
      have e1 : octets (hist ++ [.octet c, .reset]) = octets hist ++ [c] := by simp [octets]
      have e2 : octets (hist ++ [.octet c]) = octets hist ++ [c] := by simp [octets]
      have e3 : octets hist ++ [c] ++ bytes = octets hist ++ c :: bytes := by simp
      have viaReset : ∀ l, digest (reset y) bytes = some (h, l) →
          (∃ ops, history f0 (hist ++ ops) = some h ∧ ¬ Stuck h.state ∧ octets ops = c :: bytes) ∧ ∀ g ∈ l, Completed f0 g (octets hist ++ c :: bytes) := by
        intro l hd
        obtain ⟨⟨ops, a1, a2, a3⟩, a4⟩ := ih _ _ _ _ hreset (by simp [Stuck, reset]) hd
        refine ⟨⟨[.octet c, .reset] ++ ops, by rw [← List.append_assoc]; exact a1, a2, ?_⟩, ?_⟩
        · rw [octets_append, a3]; rfl
        · intro g hg
          have := a4 g hg
          rw [e1, e3] at this
          exact this
      have direct : ¬ Stuck y.state → digest y bytes = some (h, done) →
          (∃ ops, history f0 (hist ++ ops) = some h ∧ ¬ Stuck h.state ∧ octets ops = c :: bytes) ∧ ∀ g ∈ done, Completed f0 g (octets hist ++ c :: bytes) := by
        intro hys hd
        obtain ⟨⟨ops, a1, a2, a3⟩, a4⟩ := ih _ _ _ _ hstep hys hd
        refine ⟨⟨[.octet c] ++ ops, by rw [← List.append_assoc]; exact a1, a2, ?_⟩, ?_⟩
        · rw [octets_append, a3]; rfl
        · intro g hg
          have := a4 g hg
          rw [e2, e3] at this
          exact this
      cases hys : y.state
      case complete =>
        rw [hys] at ht
        simp only at ht
        split at ht
        · cases ht; exact viaReset _ hd
        · rename_i hl
          cases ht
          simp only [] at hd
          rw [Option.map_eq_some_iff] at hd
          obtain ⟨z, hz, hd⟩ := hd
          cases hd
          obtain ⟨a1, a2⟩ := viaReset z.2 hz
          refine ⟨a1, fun g hg => ?_⟩
          rcases List.mem_cons.mp hg with rfl | hg
          · exact ⟨hist, c, f, hh, hs, hy, hys, hl, bytes, by simp⟩
          · exact a2 g hg
      case abort => rw [hys] at ht; cases ht; exact viaReset _ hd
      case failed => rw [hys] at ht; cases ht; exact viaReset _ hd
      case overflow => rw [hys] at ht; cases ht; exact viaReset _ hd
      case invalid => rw [hys] at ht; cases ht; exact viaReset _ hd
      case final =>
        exfalso
        have := machineByte_not_final f y c hy hs
        simp [hys] at this
      case idle =>
        exfalso
        have := machineByte_not_final f y c hy hs
        simp [hys] at this
      all_goals
        rw [hys] at ht
        cases ht
        exact direct (by simp [Stuck, hys]) hd

theorem history_octets (f : Framer) (w : List Byte) : history f (w.map Op.octet) = feed f w := by
  induction w generalizing f with
  | nil => rfl
  | cons c w ih =>
    simp only [List.map_cons, history, perform, machine, feed]
    congr 1
    funext x
    exact ih x

theorem Carries.length_le {w d : List Byte} (h : Carries w d) : d.length ≤ w.length := by
  induction h with
  | nil => exact Nat.le_refl _
  | bare c w d _ _ ih => simp only [List.length_cons]; omega
  | stuffed c w d _ _ ih => simp only [List.length_cons]; omega

theorem IsFrame.length_ge {wire payload : List Byte} {seq : BitVec 16} (h : IsFrame wire payload seq) : payload.length + 11 ≤ wire.length := by
  obtain ⟨_, body, rfl, hc⟩ := h
  have := hc.length_le
  simp only [List.length_append, List.length_cons, List.length_nil, header, network, printable] at this ⊢
  omega

/-- What is known of a framer that has just completed a frame, and of the octets that it was given. -/
theorem completed_exact (buffer : List Byte) (size : Nat) (hb : size ≤ buffer.length) (g : Framer) (ops : List Op) (c : Byte) (e : Framer) (h1 : history (init buffer size) ops = some e)
    (h2 : ¬ Stuck e.state) (h3 : machineByte e c = some g) (h4 : g.state = .complete) (h5 : g.length ≠ 0) :
    ∃ skipped wire, octets ops ++ [c] = skipped ++ wire ∧ IsFrame (wire.filter notFlow) (g.buffer.take g.length) g.sequence ∧ (g.buffer.take g.length).length = g.length ∧ 0 < g.length ∧
      g.length ≤ size ∧ (wire.filter notFlow).length ≤ g.total ∧ g.buffer.length = buffer.length := by
  obtain ⟨pre, wire, hops, hf, hl, hle⟩ := framer_delivers_only_valid_now buffer size hb ops e g c h1 h2 h3 h4
  have hh : history (init buffer size) (ops ++ [.octet c]) = some g := by
    rw [history_snoc _ _ _ _ h1]; exact h3
  obtain ⟨g', hg', _, hlen, _⟩ := framer_stays_in_buffer buffer size hb (ops ++ [.octet c])
  rw [hh] at hg'
  cases hg'
  refine ⟨octets pre, wire, ?_, hf, hl.symm, by omega, hle, ?_, hlen⟩
  · have := congrArg octets hops
    rw [octets_append, octets_append, octets_map] at this
    rw [← this]
    simp [octets]
  · obtain ⟨mid, hm, hno, _⟩ := hf.clean
    rw [hops, history_append, Option.bind_eq_some_iff] at hh
    obtain ⟨x, _, hx⟩ := hh
    rw [history_octets] at hx
    have hmem : 0x7e#8 ∈ wire := by
      have : 0x7e#8 ∈ wire.filter notFlow := by rw [hm]; simp
      exact (List.mem_filter.mp this).1
    obtain ⟨a, b, hab, hna⟩ : ∃ a b, wire = a ++ 0x7e#8 :: b ∧ 0x7e#8 ∉ a := by
      clear hx hops hf hm hl
      induction wire with
      | nil => exact absurd hmem List.not_mem_nil
      | cons y wire ih =>
        by_cases hy : y = 0x7e#8
        · exact ⟨[], wire, by rw [hy]; rfl, List.not_mem_nil⟩
        · obtain ⟨a, b, h1, h2⟩ := ih (by
            rcases List.mem_cons.mp hmem with h | h
            · exact absurd h.symm hy
            · exact h)
          exact ⟨y :: a, b, by rw [h1]; rfl, fun h => by
            rcases List.mem_cons.mp h with h | h
            · exact hy h.symm
            · exact h2 h⟩
    have hff : notFlow 0x7e#8 = true := by decide
    rw [hab, List.filter_append, List.filter_cons_of_pos hff] at hm
    have ha : a.filter notFlow = [] := by
      cases ha : a.filter notFlow with
      | nil => rfl
      | cons y l =>
        rw [ha, List.cons_append, List.cons_append] at hm
        have : y = 0x7e#8 := (List.cons.inj hm).1
        have hy : y ∈ a.filter notFlow := by rw [ha]; simp
        rw [this] at hy
        exact absurd (List.mem_filter.mp hy).1 hna
    rw [ha, List.nil_append, List.cons_append] at hm
    have hb' : b.filter notFlow = mid ++ [0x0a#8] := (List.cons.inj hm).2
    have hnb : 0x7e#8 ∉ b := by
      intro h
      have : 0x7e#8 ∈ b.filter notFlow := List.mem_filter.mpr ⟨h, hff⟩
      rw [hb', List.mem_append] at this
      rcases this with h | h
      · exact hno h
      · revert h; decide
    rw [hab, feed_append, Option.bind_eq_some_iff] at hx
    obtain ⟨y, _, hy⟩ := hx
    rw [feed, Option.bind_eq_some_iff] at hy
    obtain ⟨z, hz, hy⟩ := hy
    have t1 := (machineByte_total y z _ hz).1
    have t2 := feed_total z g b hy hnb
    have t3 := List.length_filter_le notFlow b
    rw [hab, List.filter_append, ha, List.nil_append, List.filter_cons_of_pos hff, List.length_cons]
    omega

/-- The same of a part of what it was given. -/
theorem completed_valid (buffer : List Byte) (size : Nat) (hb : size ≤ buffer.length) (g : Framer) (bytes : List Byte) (h : Completed (init buffer size) g bytes) :
    ∃ skipped wire rest, bytes = skipped ++ wire ++ rest ∧ IsFrame (wire.filter notFlow) (g.buffer.take g.length) g.sequence ∧ (g.buffer.take g.length).length = g.length ∧ 0 < g.length ∧
      g.length ≤ size ∧ (wire.filter notFlow).length ≤ g.total ∧ g.buffer.length = buffer.length := by
  obtain ⟨ops, c, e, h1, h2, h3, h4, h5, rest, h6⟩ := h
  obtain ⟨skipped, wire, h7, h8⟩ := completed_exact buffer size hb g ops c e h1 h2 h3 h4 h5
  exact ⟨skipped, wire, rest, by rw [← h6, h7], h8⟩

end Diminuto.Framer
