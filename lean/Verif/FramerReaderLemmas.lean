import Verif.FramerProps

/-!
# Helper lemmas on reading frames from a stream
-/

namespace Diminuto.Framer

theorem readLoop_cons (f g : Framer) (c : Byte) (rest : List Byte) (h : machineByte f c = some g)
    (hs : ¬ Stuck g.state) : readLoop f (c :: rest) = readLoop g rest := by
  rw [readLoop, h]
  simp only [Option.bind_some]
  unfold Stuck at hs
  revert hs
  cases g.state <;> simp

/-- Octets that leave the receiver unstuck. -/
theorem readLoop_through (f g : Framer) (w rest : List Byte) (h : feed f w = some g)
    (hs : ¬ Stuck g.state) : readLoop f (w ++ rest) = readLoop g rest := by
  induction w generalizing f with
  | nil => cases h; rfl
  | cons c w ih =>
    rw [feed, Option.bind_eq_some_iff] at h
    obtain ⟨x, hx, hw⟩ := h
    have hxs : ¬ Stuck x.state := by
      intro hst
      obtain ⟨n, t, hr⟩ := feed_stuck x hst w
      rw [hw] at hr
      cases hr
      exact hs hst
    rw [List.cons_append, readLoop_cons f x c _ hx hxs]
    exact ih x hw

/-- An error octet resets the receiver. -/
theorem readLoop_error (f g : Framer) (c : Byte) (rest : List Byte) (h : machineByte f c = some g)
    (hs : g.state = .abort ∨ g.state = .failed ∨ g.state = .overflow ∨ g.state = .invalid) :
    readLoop f (c :: rest) = readLoop (reset g) rest := by
  rw [readLoop, h]
  simp only [Option.bind_some]
  rcases hs with hs | hs | hs | hs <;> rw [hs]

/-- What the reader keeps from frame to frame. -/
def Kept (f g : Framer) : Prop :=
  g.size = f.size ∧ g.buffer.length = f.buffer.length

theorem Frame.kept {f g : Framer} (h : Frame f g) : Kept f g := ⟨h.1, h.2.1⟩

theorem Kept.trans {f g h : Framer} (a : Kept f g) (b : Kept g h) : Kept f h :=
  ⟨b.1.trans a.1, b.2.trans a.2⟩

/-- In the reset state everything up to the next flag is ignored. -/
theorem readLoop_ignore (f : Framer) (hr : f.state = .reset) (w rest : List Byte)
    (hw : 0x7e#8 ∉ w) : ∃ g, readLoop f (w ++ rest) = readLoop g rest ∧ g.state = .reset ∧ Kept f g := by
  induction w generalizing f with
  | nil => exact ⟨f, rfl, hr, rfl, rfl⟩
  | cons c w ih =>
    simp only [List.mem_cons, not_or] at hw
    have hc : kind c ≠ .flag := by
      intro h
      rcases kind_cases c with ⟨_, hk⟩ | ⟨hk, _⟩ | ⟨_, hk⟩ | hk | hk
      · rw [hk] at h; cases h
      · exact hw.1 hk.symm
      · rw [hk] at h; cases h
      · rw [hk] at h; cases h
      · rw [hk] at h; cases h
    obtain ⟨t, hm⟩ := reset_step f hr c hc
    rw [List.cons_append, readLoop_cons f _ c _ hm (by simp [Stuck, hr])]
    obtain ⟨g, h1, h2, h3⟩ := ih { f with total := f.total + 1, throttle := t } hr hw.2
    exact ⟨g, h1, h2, h3⟩

theorem Stuffed.split {w d e : List Byte} (h : Stuffed w (d ++ e)) :
    ∃ u v, w = u ++ v ∧ Stuffed u d ∧ Stuffed v e := by
  generalize hx : d ++ e = x at h
  induction h generalizing d with
  | nil =>
    rw [List.append_eq_nil_iff] at hx
    obtain ⟨rfl, rfl⟩ := hx
    exact ⟨[], [], rfl, .nil, .nil⟩
  | plain c w y hc hw ih =>
    cases d with
    | nil => exact ⟨[], c :: w, rfl, .nil, by rw [List.nil_append] at hx; rw [hx]; exact .plain c w y hc hw⟩
    | cons a d =>
      simp only [List.cons_append, List.cons.injEq] at hx
      obtain ⟨rfl, hx⟩ := hx
      obtain ⟨u, v, rfl, hu, hv⟩ := ih hx
      exact ⟨a :: u, v, rfl, .plain a u d hc hu, hv⟩
  | esc c w y hc hw ih =>
    cases d with
    | nil => exact ⟨[], _, rfl, .nil, by rw [List.nil_append] at hx; rw [hx]; exact .esc c w y hc hw⟩
    | cons a d =>
      simp only [List.cons_append, List.cons.injEq] at hx
      obtain ⟨rfl, hx⟩ := hx
      obtain ⟨u, v, rfl, hu, hv⟩ := ih hx
      exact ⟨ESCAPE :: c :: u, v, rfl, .esc c u d hc hu, hv⟩

theorem Prog.unstuck {f : Framer} {d : List Byte} (h : Prog f d) : ¬ Stuck f.state := by
  rcases h.state_cases with h | h | h | h | h <;> simp [Stuck, h]

theorem EscProg.unstuck {f : Framer} {d : List Byte} (h : EscProg f d) : ¬ Stuck f.state := by
  rcases esc_state h with h | h | h | h <;> simp [Stuck, h]

/-- A header that announces too much: the receiver is reset at its last octet. -/
theorem readLoop_overflow (w d : List Byte) (hw : Stuffed w d) :
    ∀ (f : Framer) (d0 rest : List Byte), f.size ≤ f.buffer.length → Prog f d0 → d ≠ [] →
    hdrGood (d0 ++ d) → (d0 ++ d).length = 6 → f.size < announced (d0 ++ d) →
    ∃ g, readLoop f (w ++ rest) = readLoop g rest ∧ g.state = .reset ∧ Kept f g := by
  have one : ∀ (f f1 : Framer) (d0 : List Byte) (b : Byte) (w d rest : List Byte), Stuffed w d →
      f.size ≤ f.buffer.length → DataOutcome f f1 (d0 ++ [b]) →
      (∀ (f : Framer) (d0 rest : List Byte), f.size ≤ f.buffer.length → Prog f d0 → d ≠ [] →
        hdrGood (d0 ++ d) → (d0 ++ d).length = 6 → f.size < announced (d0 ++ d) →
        ∃ g, readLoop f (w ++ rest) = readLoop g rest ∧ g.state = .reset ∧ Kept f g) →
      hdrGood (d0 ++ b :: d) → (d0 ++ b :: d).length = 6 → f.size < announced (d0 ++ b :: d) →
      ∀ (e : Framer) (c : Byte), machineByte e c = some f1 → Kept e f →
      ∃ g, readLoop e (c :: w ++ rest) = readLoop g rest ∧ g.state = .reset ∧ Kept e g := by
    intro f f1 d0 b w d rest hw hb ho ih hg hl ha e c hm hke
    obtain ⟨hfr, _, ho⟩ := ho
    have happ : d0 ++ b :: d = (d0 ++ [b]) ++ d := by simp
    rw [happ] at hg hl ha
    have hb1 : f1.size ≤ f1.buffer.length := by rw [hfr.1, hfr.2.1]; exact hb
    rcases ho with hp | ⟨hs, hk, hlen⟩ | ⟨_, hlen, hbad, _⟩ | ⟨hs, hlen, _, hov, _⟩
    · rw [List.cons_append, readLoop_cons e f1 c _ hm hp.unstuck]
      by_cases hd : d = []
      · exfalso
        rw [hd, List.append_nil] at hl ha
        rcases hp with ⟨_, _, h⟩ | ⟨_, _, _, h⟩ | ⟨_, _, _, h⟩ | ⟨_, ⟨_, hsz⟩, n, hn, _, _, hd⟩
        · rcases h with ⟨_, _, hd⟩ | ⟨_, _, hd⟩ <;> (rw [hd] at hl; simp at hl)
        · rcases h with ⟨_, _, hd⟩ | ⟨_, _, hd⟩ <;> (rw [hd] at hl; simp at hl)
        · rcases h with ⟨_, _, hd⟩ | ⟨_, _, hd⟩ <;> (rw [hd] at hl; simp at hl)
        · have : announced (d0 ++ [b]) = value16 f1.length0 := by rw [hd]; rfl
          rw [this, ← hfr.1] at ha
          omega
      · obtain ⟨g, h1, h2, h3⟩ := ih f1 (d0 ++ [b]) rest hb1 hp hd hg hl (by rw [hfr.1]; exact ha)
        exact ⟨g, h1, h2, hke.trans (hfr.kept.trans h3)⟩
    · exfalso
      have hsz := hk.1.1.2
      have : announced (d0 ++ [b]) = value16 f1.length0 := by rw [hk.1.2.1]; rfl
      rw [announced_append _ _ (by omega), this, ← hfr.1] at ha
      omega
    · rw [hdrGood_append _ _ (by omega)] at hg
      exact absurd hg hbad
    · have hd : d = [] := by
        apply List.eq_nil_of_length_eq_zero
        rw [List.length_append] at hl
        omega
      subst hd
      cases hw
      refine ⟨reset f1, ?_, rfl, hke.trans hfr.kept⟩
      rw [List.cons_append, List.nil_append]
      exact readLoop_error e f1 c rest hm (by simp [hs])
  induction hw with
  | nil => intro f d0 rest _ _ h; exact absurd rfl h
  | plain c w d hc hw ih =>
    intro f d0 rest hb hp _ hg hl ha
    obtain ⟨f1, h1, ho⟩ := plain_step f d0 hb hp c hc
    exact one f f1 d0 c w d rest hw hb ho ih hg hl ha f c h1 ⟨rfl, rfl⟩
  | esc c w d hc hw ih =>
    intro f d0 rest hb hp _ hg hl ha
    obtain ⟨f1, h1, he, hfr, _⟩ := escape_step f d0 hp
    have hb1 : f1.size ≤ f1.buffer.length := by rw [hfr.1, hfr.2.1]; exact hb
    obtain ⟨f2, h2, ho⟩ := escaped_step f1 d0 hb1 he c hc
    rw [List.cons_append, readLoop_cons f f1 ESCAPE _ h1 he.unstuck]
    obtain ⟨g, g1, g2, g3⟩ := one f1 f2 d0 (c ^^^ MASK) w d rest hw hb1 ho ih hg hl
      (by rw [hfr.1]; exact ha) f1 c h2 ⟨rfl, rfl⟩
    exact ⟨g, g1, g2, hfr.kept.trans g3⟩

/-- A valid frame that fits and is not empty is returned. -/
theorem readLoop_good (f : Framer) (hb : f.size ≤ f.buffer.length) (hs : f.state = .reset)
    (wire payload rest : List Byte) (seq : BitVec 16) (hf : IsFrame wire payload seq)
    (hn : payload.length ≤ f.size) (hne : payload ≠ []) :
    ∃ g, readLoop f (wire ++ rest) = some (.frame g rest) ∧ g.length = payload.length ∧
      g.buffer.take g.length = payload ∧ g.sequence = seq := by
  rw [isFrame_iff] at hf
  obtain ⟨h16, body, k1, k2, k3, hk, rfl, hst⟩ := hf
  obtain ⟨g, h1, h2, _, _, _, h6, h7, h8, _, _, _, e, he, hes⟩ :=
    feed_frame f hb (Or.inl hs) body payload seq hn h16 hst k1 k2 k3 hk
  rw [feed_append, he, Option.bind_some] at h1
  simp only [feed] at h1
  have hm : machineByte e NEWLINE = some g := by
    rw [Option.bind_eq_some_iff] at h1
    obtain ⟨x, hx, hxe⟩ := h1
    cases hxe
    exact hx
  refine ⟨g, ?_, h7, by rw [h7]; exact h6, h8⟩
  rw [List.append_assoc, readLoop_through f e _ _ he (by simp [Stuck, hes])]
  rw [List.cons_append, readLoop, hm]
  simp only [Option.bind_some, h2]
  rw [if_neg (by rw [h7]; exact fun h => hne (List.eq_nil_of_length_eq_zero h))]
  rfl

/-- A valid frame that is empty is skipped. -/
theorem readLoop_empty (f : Framer) (hb : f.size ≤ f.buffer.length) (hs : f.state = .reset)
    (wire rest : List Byte) (seq : BitVec 16) (hf : IsFrame wire [] seq) :
    ∃ g, readLoop f (wire ++ rest) = readLoop g rest ∧ g.state = .reset ∧ Kept f g := by
  rw [isFrame_iff] at hf
  obtain ⟨h16, body, k1, k2, k3, hk, rfl, hst⟩ := hf
  obtain ⟨g, h1, h2, h3, h4, _, _, h7, _, _, _, _, e, he, hes⟩ :=
    feed_frame f hb (Or.inl hs) body [] seq (Nat.zero_le _) h16 hst k1 k2 k3 hk
  rw [feed_append, he, Option.bind_some] at h1
  simp only [feed] at h1
  have hm : machineByte e NEWLINE = some g := by
    rw [Option.bind_eq_some_iff] at h1
    obtain ⟨x, hx, hxe⟩ := h1
    cases hxe
    exact hx
  refine ⟨reset g, ?_, rfl, h3, h4⟩
  rw [List.append_assoc, readLoop_through f e _ _ he (by simp [Stuck, hes])]
  rw [List.cons_append, readLoop, hm]
  simp only [Option.bind_some, h2, h7, List.length_nil, if_true, List.nil_append]

/-- A valid frame that does not fit is skipped. -/
theorem readLoop_large (f : Framer) (hb : f.size ≤ f.buffer.length) (hs : f.state = .reset)
    (wire payload rest : List Byte) (seq : BitVec 16) (hf : IsFrame wire payload seq)
    (hn : f.size < payload.length) :
    ∃ g, readLoop f (wire ++ rest) = readLoop g rest ∧ g.state = .reset ∧ Kept f g := by
  have hclean := hf.clean
  rw [isFrame_iff] at hf
  obtain ⟨h16, body, k1, k2, k3, hk, rfl, hst⟩ := hf
  obtain ⟨f1, h1, hp1, hs1, fr1, _⟩ := flag_step f (Or.inl hs)
  obtain ⟨u, v, rfl, hu, hv⟩ := hst.split
  obtain ⟨mid, hmid, hno, _⟩ := hclean
  have hmid' : u ++ (v ++ [k1, k2, k3]) = mid := by
    simp only [FLAG, NEWLINE, List.cons_append, List.append_assoc, List.cons.injEq, true_and] at hmid
    have : (u ++ (v ++ [k1, k2, k3])) ++ [0x0a#8] = mid ++ [0x0a#8] := by simpa using hmid
    exact List.append_cancel_right this
  have hb1 : f1.size ≤ f1.buffer.length := by rw [fr1.1, fr1.2.1]; exact hb
  obtain ⟨hgood, hann⟩ := headerOf_good payload.length seq []
  rw [List.append_nil] at hgood hann
  obtain ⟨g, h2, h3, h4⟩ := readLoop_overflow u _ hu f1 [] ((v ++ [k1, k2, k3] ++ [NEWLINE]) ++ rest)
    hb1 hp1 (by simp [headerOf]) hgood (by simp [headerOf])
    (by rw [List.nil_append, hann h16, fr1.1]; exact hn)
  obtain ⟨g', h5, h6, h7⟩ := readLoop_ignore g h3 (v ++ [k1, k2, k3] ++ [NEWLINE]) rest (by
    rw [List.mem_append, not_or]
    refine ⟨fun h => hno (by rw [← hmid']; exact List.mem_append_right _ h), by decide⟩)
  refine ⟨g', ?_, h6, fr1.kept.trans (h4.trans h7)⟩
  rw [← h5, ← h2]
  have e : FLAG :: (u ++ v) ++ [k1, k2, k3] ++ [NEWLINE] ++ rest =
      FLAG :: (u ++ (v ++ [k1, k2, k3] ++ [NEWLINE] ++ rest)) := by simp
  rw [e, readLoop_cons f f1 FLAG _ h1 hp1.unstuck]

theorem history_stuck (f : Framer) (h : Stuck f.state) (bytes : List Byte) :
    ∃ g, history f (bytes.map Op.octet) = some g ∧ g.state = f.state := by
  induction bytes generalizing f with
  | nil => exact ⟨f, rfl, rfl⟩
  | cons c rest ih =>
    obtain ⟨t, hm⟩ := stuck_step f h c
    obtain ⟨g, hg, hs⟩ := ih { f with total := f.total + 1, throttle := t } h
    refine ⟨g, ?_, hs⟩
    simp only [List.map_cons, history, perform, machine, hm, Option.bind_some]
    exact hg

/-- The octets of a history. -/
def octets (ops : List Op) : List Byte :=
  ops.filterMap fun op => match op with | .octet c => some c | _ => none

theorem octets_append (xs ys : List Op) : octets (xs ++ ys) = octets xs ++ octets ys := by
  simp [octets]

theorem octets_map (w : List Byte) : octets (w.map Op.octet) = w := by
  induction w with
  | nil => rfl
  | cons c w ih => simp only [octets, List.map_cons, List.filterMap_cons] at *; rw [ih]

theorem store_state (ch : Byte) (x y : Framer) (h : store ch x = some y) : y.state = x.state := by
  unfold store at h
  by_cases h0 : x.limit = 0
  · simp [h0] at h
  · simp only [h0, if_false] at h
    split at h <;> first
      | (cases h; rfl)
      | (split at h <;> first | (cases h; rfl) | cases h)
      | cases h

theorem act_state (a : Action) (ch : Byte) (x y : Framer) (h : act a ch x = some y) :
    y.state = x.state ∨ y.state = .failed ∨ y.state = .overflow ∨ y.state = .kermit := by
  cases a with
  | reset => cases h; exact Or.inl rfl
  | consume => cases h; exact Or.inl rfl
  | store => exact Or.inl (store_state _ _ _ h)
  | length =>
    simp only [act, Option.map_eq_some_iff] at h
    obtain ⟨z, hz, rfl⟩ := h
    have := store_state _ _ _ hz
    exact Or.inl this
  | sequence =>
    simp only [act, Option.map_eq_some_iff] at h
    obtain ⟨z, hz, rfl⟩ := h
    have := store_state _ _ _ hz
    exact Or.inl this
  | fletcher =>
    simp only [act, Option.map_eq_some_iff] at h
    obtain ⟨z, hz, rfl⟩ := h
    have := store_state _ _ _ hz
    simp only [actFletcher]
    repeat' split
    all_goals simp [this]
  | payload =>
    simp only [act, Option.bind_eq_some_iff] at h
    obtain ⟨z, hz, hy⟩ := h
    unfold actPayload at hy
    split at hy <;> cases hy
    have := store_state _ _ _ hz
    exact Or.inl this
  | kermit =>
    simp only [act, Option.map_eq_some_iff] at h
    obtain ⟨z, hz, rfl⟩ := h
    have := store_state _ _ _ hz
    simp only [actKermit]
    repeat' split
    all_goals simp [this]
  | terminate =>
    simp only [act, actTerminate] at h
    repeat' split at h
    all_goals cases h
    all_goals exact Or.inl rfl

theorem machineByte_not_final (f g : Framer) (c : Byte) (h : machineByte f c = some g)
    (hs : ¬ Stuck f.state) : g.state ≠ .final ∧ g.state ≠ .idle := by
  have h' := act_state _ _ _ _ h
  have ht : (transition f.state f.limit (kind c)).1 ≠ .final ∧
      (transition f.state f.limit (kind c)).1 ≠ .idle := by
    revert hs
    cases f.state <;> simp only [Stuck, reduceCtorEq, or_false, or_true, not_true_eq_false,
      not_false_eq_true, false_implies, true_implies, or_self] <;> cases kind c <;>
      simp only [transition] <;> repeat' split
    all_goals decide
  rcases h' with h' | h' | h' | h'
  · simp only at h'
    rw [h']; exact ht
  all_goals rw [h']; decide

/-- The history behind a frame returned. -/
theorem readLoop_history (f0 : Framer) (bytes : List Byte) : ∀ (hist : List Op) (f g : Framer)
    (rest : List Byte), history f0 hist = some f → ¬ Stuck f.state →
    readLoop f bytes = some (.frame g rest) →
    ∃ ops c e, history f0 (hist ++ ops) = some e ∧ ¬ Stuck e.state ∧ machineByte e c = some g ∧
      g.state = .complete ∧ g.length ≠ 0 ∧ bytes = octets ops ++ c :: rest := by
  induction bytes with
  | nil => intro hist f g rest _ _ h; simp [readLoop, machine] at h
  | cons c bytes ih =>
    intro hist f g rest hh hs h
    rw [readLoop, Option.bind_eq_some_iff] at h
    obtain ⟨x, hx, h⟩ := h
    have hstep : history f0 (hist ++ [.octet c]) = some x := by
      rw [history_snoc _ _ _ _ hh]; exact hx
    have hreset : history f0 (hist ++ [.octet c, .reset]) = some (reset x) := by
      rw [show hist ++ [Op.octet c, .reset] = (hist ++ [.octet c]) ++ [.reset] by simp,
        history_snoc _ _ _ _ hstep]
      rfl
    have viaReset : readLoop (reset x) bytes = some (.frame g rest) →
        ∃ ops d e, history f0 (hist ++ ops) = some e ∧ ¬ Stuck e.state ∧ machineByte e d = some g ∧
          g.state = .complete ∧ g.length ≠ 0 ∧ c :: bytes = octets ops ++ d :: rest := by
      intro h
      obtain ⟨ops, d, e, h1, h2, h3, h4, h5, h6⟩ := ih _ _ g rest hreset (by simp [Stuck, reset]) h
      refine ⟨[.octet c, .reset] ++ ops, d, e, by rw [← List.append_assoc]; exact h1, h2, h3, h4, h5, ?_⟩
      rw [h6]
      rfl
    have direct : ¬ Stuck x.state → readLoop x bytes = some (.frame g rest) →
        ∃ ops d e, history f0 (hist ++ ops) = some e ∧ ¬ Stuck e.state ∧ machineByte e d = some g ∧
          g.state = .complete ∧ g.length ≠ 0 ∧ c :: bytes = octets ops ++ d :: rest := by
      intro hx h
      obtain ⟨ops, d, e, h1, h2, h3, h4, h5, h6⟩ := ih _ _ g rest hstep hx h
      refine ⟨[.octet c] ++ ops, d, e, by rw [← List.append_assoc]; exact h1, h2, h3, h4, h5, ?_⟩
      rw [h6]
      rfl
    cases hxs : x.state
    case complete =>
      rw [hxs] at h
      simp only at h
      split at h
      · exact viaReset h
      · rename_i hl
        cases h
        exact ⟨[], c, f, by rw [List.append_nil]; exact hh, hs, hx, hxs, hl, rfl⟩
    case abort => rw [hxs] at h; exact viaReset h
    case failed => rw [hxs] at h; exact viaReset h
    case overflow => rw [hxs] at h; exact viaReset h
    case invalid => rw [hxs] at h; exact viaReset h
    case final =>
      exfalso
      have := machineByte_not_final f x c hx hs
      simp [hxs] at this
    case idle =>
      exfalso
      have := machineByte_not_final f x c hx hs
      simp [hxs] at this
    all_goals
      rw [hxs] at h
      exact direct (by simp [Stuck, hxs]) h

/-- As `framer_delivers_only_valid`, at the very octet that completes the frame. -/
theorem framer_delivers_only_valid_now (buffer : List Byte) (size : Nat) (hb : size ≤ buffer.length)
    (ops : List Op) (e f : Framer) (c : Byte) (he : history (init buffer size) ops = some e)
    (hs : ¬ Stuck e.state) (hm : machineByte e c = some f) (hc : f.state = .complete) :
    ∃ pre, ∃ wire : List Byte, ops ++ [.octet c] = pre ++ wire.map Op.octet ∧
      IsFrame (wire.filter notFlow) (f.buffer.take f.length) f.sequence ∧
      f.length = (f.buffer.take f.length).length ∧ f.length ≤ size := by
  have hf : history (init buffer size) (ops ++ [.octet c]) = some f := by
    rw [history_snoc _ _ _ _ he]; exact hm
  obtain ⟨pre, wire, post, h1, h2, h3, h4, h5⟩ :=
    framer_delivers_only_valid' buffer size hb _ f hf hc
  have hp : post = [] := by
    by_cases hp : post = []
    · exact hp
    · exfalso
      obtain ⟨q, d, rfl⟩ := List.eq_nil_or_concat post |>.resolve_left hp
      rw [List.concat_eq_append, List.map_append, List.map_append, ← List.append_assoc,
        ← List.append_assoc] at h1
      obtain ⟨h1, _⟩ := List.append_inj' h1 rfl
      obtain ⟨x, hx, hxs⟩ := h5
      obtain ⟨y, hy, hys⟩ := history_stuck x (by simp [Stuck, hxs]) q
      rw [h1, history_append, hx, Option.bind_some, hy] at he
      cases he
      rw [hxs] at hys
      exact hs (by simp [Stuck, hys])
  subst hp
  exact ⟨pre, wire, by simpa using h1, h2, h3, h4⟩

end Diminuto.Framer
