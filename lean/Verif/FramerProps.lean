import Verif.FramerLemmas2
import Verif.FletcherProps

/-!
# Properties of the Framer feature

The specification of a frame below (`IsFrame`) does not refer to the state
machine nor to the writer: a flag octet; the octet-stuffed header (length and
sequence number in network order and the two sums of the Fletcher checksum) and
payload; the CRC of the payload as three printable characters; and a newline.
-/

namespace Diminuto.Framer

/-! ## Specification -/

/-- The octets that never appear bare inside a frame. -/
def specials : List Byte := [0x0a#8, 0x7e#8, 0x7d#8, 0x11#8, 0x13#8]

/-- `Carries wire data`: the wire octets, all of them bare or preceded by the
escape octet and then with bit five inverted, carry the data. -/
inductive Carries : List Byte → List Byte → Prop
  | nil : Carries [] []
  | bare (c : Byte) (w d : List Byte) : c ∉ specials → Carries w d → Carries (c :: w) (c :: d)
  | stuffed (c : Byte) (w d : List Byte) : c ∉ specials → Carries w d →
      Carries (0x7d#8 :: c :: w) ((c ^^^ 0x20#8) :: d)

/-- Big-endian octets of a number below 65536. -/
def network (n : Nat) : List Byte := [BitVec.ofNat 8 (n / 256), BitVec.ofNat 8 (n % 256)]

/-- The header of a frame. -/
def header (n seq : Nat) : List Byte :=
  let h := network n ++ network seq
  h ++ [BitVec.ofNat 8 (Fletcher.specSum h % 255), BitVec.ofNat 8 (Fletcher.specWeighted h % 255)]

/-- A 16-bit value as three printable characters, six bits each but the first. -/
def printable (crc : Nat) : List Byte :=
  [BitVec.ofNat 8 (0x20 + crc / 4096), BitVec.ofNat 8 (0x20 + crc / 64 % 64),
    BitVec.ofNat 8 (0x20 + crc % 64)]

/-- The frame format.  The CRC itself is the subject of C03. -/
def IsFrame (wire payload : List Byte) (seq : BitVec 16) : Prop :=
  payload.length ≤ 65535 ∧ ∃ body,
    wire = 0x7e#8 :: body ++ printable (Kermit.kermit16 payload 0#16).toNat ++ [0x0a#8] ∧
    Carries body (header payload.length seq.toNat ++ payload)

/-- Not software flow control. -/
def notFlow (c : Byte) : Bool := c != 0x11#8 && c != 0x13#8

/-! ## The specification and the model's vocabulary -/

theorem ordinary_iff (c : Byte) : c ∉ specials ↔ kind c = .other := by
  revert c; decide +kernel

theorem solid_notFlow (c : Byte) : decide (kind c ≠ .flow) = notFlow c := by
  revert c; decide +kernel

theorem carries_iff (w d : List Byte) : Carries w d ↔ Stuffed w d := by
  constructor
  · intro h
    induction h with
    | nil => exact .nil
    | bare c w d hc _ ih => exact .plain c w d ((ordinary_iff c).mp hc) ih
    | stuffed c w d hc _ ih => exact .esc c w d ((ordinary_iff c).mp hc) ih
  · intro h
    induction h with
    | nil => exact .nil
    | plain c w d hc _ ih => exact .bare c w d ((ordinary_iff c).mpr hc) ih
    | esc c w d hc _ ih => exact .stuffed c w d ((ordinary_iff c).mpr hc) ih

theorem header_eq (n : Nat) (seq : BitVec 16) : header n seq.toNat = headerOf n seq := by
  unfold header headerOf network
  simp only [List.cons_append, List.nil_append]
  generalize BitVec.ofNat 8 (n / 256) = a
  generalize BitVec.ofNat 8 (n % 256) = b
  generalize BitVec.ofNat 8 (seq.toNat / 256) = c
  generalize BitVec.ofNat 8 (seq.toNat % 256) = d
  obtain ⟨h1, h2, _⟩ := Fletcher.fletcher_value ⟨0#8, 0#8⟩ [a, b, c, d] (by decide) (by decide)
  simp only [Fletcher.fletcher16, BitVec.toNat_ofNat, Nat.zero_mod, Nat.mul_zero, Nat.zero_add]
    at h1 h2
  rw [← h1, ← h2]
  simp

theorem printable_eq (crc : BitVec 16) (k1 k2 k3 : Byte) (h : Kermit.crc2chars crc = (k1, k2, k3)) :
    printable crc.toNat = [k1, k2, k3] := by
  have hlt := crc.isLt
  have h4 : ∀ x : BitVec 16, (x &&& 0x0f).toNat = x.toNat % 16 := fun x => by
    rw [BitVec.toNat_and]; exact Nat.and_two_pow_sub_one_eq_mod _ 4
  have h6 : ∀ x : BitVec 16, (x &&& 0x3f).toNat = x.toNat % 64 := fun x => by
    rw [BitVec.toNat_and]; exact Nat.and_two_pow_sub_one_eq_mod _ 6
  simp only [Kermit.crc2chars, Prod.mk.injEq] at h
  obtain ⟨rfl, rfl, rfl⟩ := h
  unfold printable Kermit.tochar
  have e : ∀ (x : BitVec 16) (n : Nat), x.toNat = n → n < 64 →
      BitVec.ofNat 8 (0x20 + n) = (x + 0x20).setWidth 8 := by
    intro x n hx hn
    apply BitVec.eq_of_toNat_eq
    simp [hx]
    omega
  rw [e ((crc >>> 12) &&& 0x0f) _ (by rw [h4]; simp; rw [Nat.shiftRight_eq_div_pow]; omega) (by omega),
    e ((crc >>> 6) &&& 0x3f) _ (by rw [h6]; simp; rw [Nat.shiftRight_eq_div_pow]) (by omega),
    e ((crc >>> 0) &&& 0x3f) _ (by rw [h6]; simp) (by omega)]

theorem isFrame_iff (wire payload : List Byte) (seq : BitVec 16) : IsFrame wire payload seq ↔
    payload.length ≤ 65535 ∧ ∃ body k1 k2 k3,
      Kermit.crc2chars (Kermit.kermit16 payload 0#16) = (k1, k2, k3) ∧
      wire = FLAG :: body ++ [k1, k2, k3] ++ [NEWLINE] ∧
      Stuffed body (headerOf payload.length seq ++ payload) := by
  unfold IsFrame
  simp only [carries_iff, header_eq]
  constructor
  · rintro ⟨h, body, hw, hs⟩
    refine ⟨h, body, _, _, _, rfl, ?_, hs⟩
    rw [hw, printable_eq _ _ _ _ rfl]
    rfl
  · rintro ⟨h, body, k1, k2, k3, hk, hw, hs⟩
    refine ⟨h, body, ?_, hs⟩
    rw [hw, printable_eq _ _ _ _ hk]
    rfl

theorem be16_eq (w : BitVec 16) : be16 w = network w.toNat := by
  have := w.isLt
  unfold be16 network
  congr 1
  · apply BitVec.eq_of_toNat_eq; simp [Nat.shiftRight_eq_div_pow]
  · congr 1
    apply BitVec.eq_of_toNat_eq; simp

theorem emit_append (x y : List Byte) : emit (x ++ y) = emit x ++ emit y := by
  simp [emit]

/-! ## C07 -/

/-- The writer emits a frame of the documented format, numbered one more than the
previous one; it refuses only payloads that do not fit a 16-bit length. -/
theorem framer_writer_emits_frame (s : Framer) (payload : List Byte) :
    (payload.length ≤ 65535 → ∃ wire, writer s payload =
      some (wire, { s with generated := s.generated + 1 }) ∧
      IsFrame wire payload (s.generated + 1)) ∧
    (65535 < payload.length → writer s payload = none) := by
  constructor
  · intro h
    unfold writer
    rw [if_neg (by omega)]
    simp only [be16_eq]
    refine ⟨_, rfl, ?_⟩
    rw [isFrame_iff]
    have hk : (if payload.length > 0 then Kermit.kermit16 payload 0#16 else 0#16) =
        Kermit.kermit16 payload 0#16 := by
      cases payload with
      | nil => rfl
      | cons a t => simp
    have hd : (if payload.length > 0 then emit payload else []) = emit payload := by
      cases payload with
      | nil => rfl
      | cons a t => simp
    rw [hk, hd]
    refine ⟨h, emit (headerOf payload.length (s.generated + 1) ++ payload), _, _, _, rfl, ?_,
      stuffed_emit _⟩
    have hl : (BitVec.ofNat 16 payload.length).toNat = payload.length := by
      simp; omega
    rw [hl]
    simp only [emit_append, headerOf, network]
    simp only [emit, List.flatMap_cons, List.flatMap_nil, List.append_nil, List.append_assoc,
      List.cons_append, List.nil_append, ← Fletcher.run_append]
    rfl
  · intro h
    unfold writer
    rw [if_pos h]

/-- Any valid frame whose payload fits is received by a reset receiver. -/
theorem framer_accepts_valid (f : Framer) (hb : f.size ≤ f.buffer.length)
    (wire payload : List Byte) (seq : BitVec 16) (hf : IsFrame wire payload seq)
    (hn : payload.length ≤ f.size) :
    ∃ f', feed (reset f) wire = some f' ∧ f'.state = .complete ∧
      f'.buffer.take payload.length = payload ∧ f'.length = payload.length ∧
      f'.sequence = seq ∧ f'.previous = f.sequence ∧
      f'.buffer.drop f.size = f.buffer.drop f.size ∧ f'.size = f.size ∧
      f'.buffer.length = f.buffer.length ∧ f'.generated = f.generated ∧
      (payload.length < f.size → f'.buffer[payload.length]? = some 0#8) := by
  rw [isFrame_iff] at hf
  obtain ⟨h16, body, k1, k2, k3, hk, rfl, hs⟩ := hf
  obtain ⟨f', h1, h2, h3, h4, h5, h6, h7, h8, h9, h10, h11, _⟩ :=
    feed_frame (reset f) hb (Or.inl rfl) body payload seq hn h16 hs k1 k2 k3 hk
  exact ⟨f', h1, h2, h6, h7, h8, h9, h5, h3, h4, h10, h11⟩

/-- C07: what any sender emits for a payload, a reset receiver with room receives
as that payload, that length and the sender's sequence number. -/
theorem framer_round_trip (s f : Framer) (payload : List Byte) (h16 : payload.length ≤ 65535)
    (hb : f.size ≤ f.buffer.length) (hn : payload.length ≤ f.size) :
    ∃ wire s' f', writer s payload = some (wire, s') ∧ s'.generated = s.generated + 1 ∧
      feed (reset f) wire = some f' ∧ f'.state = .complete ∧
      f'.buffer.take f'.length = payload ∧ f'.length = payload.length ∧
      f'.sequence = s'.generated ∧
      (payload.length < f.size → f'.buffer[payload.length]? = some 0#8) := by
  obtain ⟨wire, hw, hf⟩ := (framer_writer_emits_frame s payload).1 h16
  obtain ⟨f', h1, h2, h3, h4, h5, _, _, _, _, _, h11⟩ :=
    framer_accepts_valid f hb wire payload _ hf hn
  exact ⟨wire, _, f', hw, rfl, h1, h2, by rw [h4]; exact h3, h4, h5, h11⟩

/-- A payload with every special octet, sequence number 0x7d11, in a buffer of nine. -/
example :
    let s := { init [] 0 with generated := 0x7d10#16 }
    let f := init (List.replicate 10 0xff#8) 9
    (writer s [0x0a, 0x7e, 0x7d, 0x11, 0x13, 0x00, 0x5e]).bind
      (fun (w, _) => (feed f w).map (fun f' => (f'.state, f'.length, f'.sequence, f'.buffer))) =
    some (.complete, 7, 0x7d11#16, [0x0a, 0x7e, 0x7d, 0x11, 0x13, 0x00, 0x5e, 0x00, 0xff, 0xff]) := by
  decide +kernel

/-! ## C08 -/

/-- C08: whatever octets, end-of-file indications and resets the receiver gets,
every step is defined (no contract is violated and nothing is stored outside
`size`), and the memory at and above `size` is never changed. -/
theorem framer_stays_in_buffer (buffer : List Byte) (size : Nat) (hb : size ≤ buffer.length)
    (ops : List Op) :
    ∃ f, history (init buffer size) ops = some f ∧ f.size = size ∧
      f.buffer.length = buffer.length ∧ f.buffer.drop size = buffer.drop size := by
  obtain ⟨f, h1, h2, h3, _, h4, _⟩ := TInv.all buffer size hb ops
  exact ⟨f, h1, h2, h3, h4⟩

/-- C08 (overflow): overflow is reported only for a header whose checksum is
right and which announces more than `size`, and then no octet of the buffer has
changed since the flag of that frame. -/
theorem framer_overflow_stores_nothing (buffer : List Byte) (size : Nat) (hb : size ≤ buffer.length)
    (ops : List Op) (f : Framer) (hf : history (init buffer size) ops = some f)
    (ho : f.state = .overflow) :
    ∃ pre g mid post n seq, ops = pre ++ (0x7e#8 :: mid ++ post).map Op.octet ∧
      history (init buffer size) pre = some g ∧
      Carries (mid.filter notFlow) (header n seq) ∧ size < n ∧ f.buffer = g.buffer := by
  obtain ⟨f', h1, h2, _, _, _, h⟩ := TInv.all buffer size hb ops
  rw [hf] at h1
  cases h1
  have hflow : ∀ m : List Byte, solid m = m.filter notFlow := by
    intro m
    unfold solid
    apply List.filter_congr
    intro c _
    exact solid_notFlow c
  rcases h with h | ⟨g, mid, _, hw⟩ | ⟨_, g, mid, post, d, ⟨pre, he, hg⟩, hst, hl, hgood, hann, hbuf⟩ |
      ⟨h, _⟩
  · rw [ho] at h; simp at h
  · rcases hw with ⟨d, hp, _⟩ | ⟨_, d, _, _, hp, _⟩ | ⟨_, _, _, _, _, hs, _⟩ | ⟨_, _, _, _, _, hs, _⟩
    · rcases hp.state_cases with h | h | h | h | h <;> (rw [ho] at h; cases h)
    · rcases esc_state hp with h | h | h | h <;> (rw [ho] at h; cases h)
    · rw [ho] at hs; cases hs
    · rw [ho] at hs; cases hs
  · match d, hl with
    | [a, b, x, y, p, q], _ =>
      have hn := a.isLt
      have hn' := b.isLt
      have hx := x.isLt
      have hy := y.isLt
      refine ⟨pre, g, mid, post, announced [a, b, x, y, p, q], y.toNat + 256 * x.toNat, ?_, hg, ?_, ?_, hbuf⟩
      · rw [he]; simp [FLAG]
      · rw [← hflow, carries_iff]
        have hseq : (BitVec.ofNat 16 (y.toNat + 256 * x.toNat)).toNat = y.toNat + 256 * x.toNat := by
          simp; omega
        rw [← hseq, header_eq]
        have e1 : BitVec.ofNat 8 (announced [a, b, x, y, p, q] / 256) = a := by
          show BitVec.ofNat 8 ((b.toNat + 256 * a.toNat) / 256) = a
          apply BitVec.eq_of_toNat_eq; simp; omega
        have e2 : BitVec.ofNat 8 (announced [a, b, x, y, p, q] % 256) = b := by
          show BitVec.ofNat 8 ((b.toNat + 256 * a.toNat) % 256) = b
          apply BitVec.eq_of_toNat_eq; simp; omega
        have e3 : BitVec.ofNat 8 ((y.toNat + 256 * x.toNat) / 256) = x := by
          apply BitVec.eq_of_toNat_eq; simp; omega
        have e4 : BitVec.ofNat 8 ((y.toNat + 256 * x.toNat) % 256) = y := by
          apply BitVec.eq_of_toNat_eq; simp; omega
        unfold headerOf
        rw [hseq, e1, e2, e3, e4]
        have hg' : (⟨p, q⟩ : Fletcher.State) = Fletcher.run ⟨0#8, 0#8⟩ [a, b, x, y] := hgood
        simp only [← hg']
        exact hst
      · rw [h2] at hann
        exact hann
  · rw [ho] at h; cases h

/-- A frame announcing three octets to a buffer of two, and one announcing two. -/
example :
    let s := init [] 0
    let f := init [1#8, 2#8, 3#8] 2
    ((writer s [0x41, 0x42, 0x43]).bind fun (w, _) => (feed f w).map fun f' => (f'.state, f'.buffer)) =
      some (.overflow, [1, 2, 3]) ∧
    ((writer s [0x41, 0x42]).bind fun (w, _) => (feed f w).map fun f' => (f'.state, f'.buffer)) =
      some (.complete, [0x41, 0x42, 3]) := by
  decide +kernel

/-! ## C09 -/

/-- C09, with the state of the receiver at the end of the frame. -/
theorem framer_delivers_only_valid' (buffer : List Byte) (size : Nat) (hb : size ≤ buffer.length)
    (ops : List Op) (f : Framer) (hf : history (init buffer size) ops = some f)
    (hc : f.state = .complete) :
    ∃ pre, ∃ wire post : List Byte, ops = pre ++ (wire ++ post).map Op.octet ∧
      IsFrame (wire.filter notFlow) (f.buffer.take f.length) f.sequence ∧
      f.length = (f.buffer.take f.length).length ∧ f.length ≤ size ∧
      ∃ e, history (init buffer size) (pre ++ wire.map Op.octet) = some e ∧ e.state = .complete := by
  obtain ⟨f', h1, h2, h3, _, _, h⟩ := TInv.all buffer size hb ops
  rw [hf] at h1
  cases h1
  have hflow : ∀ m : List Byte, solid m = m.filter notFlow := by
    intro m
    unfold solid
    apply List.filter_congr
    intro c _
    exact solid_notFlow c
  rcases h with h | ⟨g, mid, _, hw⟩ | ⟨h, _⟩ |
      ⟨_, g, mid, post, e, ⟨pre, he, hg⟩, ⟨w', d, k, hw, hst, hn⟩, hsz, hlen, htake, hl, hs, hlast⟩
  · rw [hc] at h; simp at h
  · rcases hw with ⟨d, hp, _⟩ | ⟨_, d, _, _, hp, _⟩ | ⟨_, _, _, _, _, hs, _⟩ | ⟨_, _, _, _, _, hs, _⟩
    · rcases hp.state_cases with h | h | h | h | h <;> (rw [hc] at h; cases h)
    · rcases esc_state hp with h | h | h | h <;> (rw [hc] at h; cases h)
    · rw [hc] at hs; cases hs
    · rw [hc] at hs; cases hs
  · rw [hc] at h; cases h
  · obtain ⟨⟨⟨hab, hle⟩, hd, hcrc⟩, hk, v1, v2, v3, hcc⟩ := hn
    have hpl : (f.buffer.take f.length).length = f.length := by
      rw [List.length_take, hl]
      have h3' : f.buffer.length = buffer.length := h3
      have h2' : f.size = size := h2
      omega
    refine ⟨pre, FLAG :: mid ++ [NEWLINE], post, ?_, ?_, hpl.symm, ?_, ?_⟩
    · rw [he]; simp
    · have hbound : value16 e.length0 ≤ 65535 := by
        unfold value16
        have := e.length0.1.isLt
        have := e.length0.2.isLt
        omega
      rw [isFrame_iff]
      refine ⟨by rw [hpl, hl]; exact hbound, w', e.check.1, e.check.2.1, e.check.2.2, ?_, ?_, ?_⟩
      · rw [hl, htake, ← hcrc, ← hcc]
        exact chars_inverse _ _ _ v1 v2 v3
      · rw [← hflow]
        have : solid (FLAG :: mid ++ [NEWLINE]) = FLAG :: solid mid ++ [NEWLINE] := by
          have e1 : kind FLAG ≠ .flow := by decide
          have e2 : kind NEWLINE ≠ .flow := by decide
          simp [solid, e1, e2]
        rw [this, hw, hk]
        simp
      · rw [hpl, hl, htake, hs]
        rw [hd] at hst
        have hh : hdr e = headerOf (value16 e.length0) (BitVec.ofNat 16 (value16 e.sequence0)) := by
          have a1 := e.length0.1.isLt
          have a2 := e.length0.2.isLt
          have a3 := e.sequence0.1.isLt
          have a4 := e.sequence0.2.isLt
          unfold headerOf
          have hseq : (BitVec.ofNat 16 (value16 e.sequence0)).toNat = value16 e.sequence0 := by
            simp [value16]; omega
          rw [hseq]
          have e1 : BitVec.ofNat 8 (value16 e.length0 / 256) = e.length0.2 := by
            apply BitVec.eq_of_toNat_eq; simp [value16]; omega
          have e2 : BitVec.ofNat 8 (value16 e.length0 % 256) = e.length0.1 := by
            apply BitVec.eq_of_toNat_eq; simp [value16]; omega
          have e3 : BitVec.ofNat 8 (value16 e.sequence0 / 256) = e.sequence0.2 := by
            apply BitVec.eq_of_toNat_eq; simp [value16]; omega
          have e4 : BitVec.ofNat 8 (value16 e.sequence0 % 256) = e.sequence0.1 := by
            apply BitVec.eq_of_toNat_eq; simp [value16]; omega
          rw [e1, e2, e3, e4]
          simp only [← hab]
          rfl
        rw [← hh]
        exact hst
    · rw [hl]
      have h2' : f.size = size := h2
      omega
    · obtain ⟨e', h1, h2⟩ := hlast (pre ++ (FLAG :: mid ++ [NEWLINE]).map Op.octet) (by rw [he]; simp)
      exact ⟨e', h1, h2⟩

/-- C09: if, after any history, the receiver is in the complete state, then the
history ends (but for octets ignored since) with a valid frame, interspersed at
most with XON and XOFF, whose payload and sequence number are the ones reported. -/
theorem framer_delivers_only_valid (buffer : List Byte) (size : Nat) (hb : size ≤ buffer.length)
    (ops : List Op) (f : Framer) (hf : history (init buffer size) ops = some f)
    (hc : f.state = .complete) :
    ∃ pre, ∃ wire post : List Byte, ops = pre ++ (wire ++ post).map Op.octet ∧
      IsFrame (wire.filter notFlow) (f.buffer.take f.length) f.sequence ∧
      f.length = (f.buffer.take f.length).length ∧ f.length ≤ size := by
  obtain ⟨pre, wire, post, h1, h2, h3, h4, _⟩ := framer_delivers_only_valid' buffer size hb ops f hf hc
  exact ⟨pre, wire, post, h1, h2, h3, h4⟩

/-- A corrupted payload octet: the receiver reports failure instead. -/
example :
    let f := init [0#8, 0#8] 2
    ((writer f [0x41, 0x42]).bind fun (w, _) => (feed f (w.set 9 0x43)).map fun f' => f'.state) =
      some .failed ∧
    ((writer f [0x41, 0x42]).bind fun (w, _) => (feed f w).map fun f' => f'.state) =
      some .complete := by
  decide +kernel

/-! ## C10 -/

theorem machineByte_ignores (f : Framer) (n : Nat) (t : Bool) (c : Byte) (hc : kind c ≠ .flow) :
    ∃ n', machineByte { f with total := n, throttle := t } c =
      (machineByte f c).map (fun g => { g with total := n', throttle := t }) := by
  have hx : ¬ c = XON ∧ ¬ c = XOFF := by
    constructor <;> (intro h; subst h; exact hc (by decide))
  unfold machineByte
  simp only [if_neg hx.1, if_neg hx.2]
  generalize (if (escaped f.state && kind c == Kind.other) = true then c ^^^ MASK else c) = ch
  generalize transition f.state f.limit (kind c) = tr
  obtain ⟨next, action⟩ := tr
  refine ⟨if action = .reset then 1 else n + 1, ?_⟩
  simp only []
  have hst : ∀ (x : Framer) (n : Nat) (t : Bool), store ch { x with total := n, throttle := t } =
      (store ch x).map (fun g => { g with total := n, throttle := t }) := by
    intro x n t
    unfold store
    by_cases h0 : x.limit = 0
    · simp [h0]
    · simp only [h0, if_false]
      rcases x.here with ⟨fl, i⟩
      cases fl <;> rcases i with _ | _ | _ | i <;> simp
  cases action with
  | reset => rfl
  | consume => rfl
  | store =>
    simp only [act, reduceCtorEq, if_false]
    rw [hst { f with state := next } (n + 1) t, hst { f with state := next } (f.total + 1) f.throttle]
    rw [Option.map_map]
    rfl
  | length =>
    simp only [act, reduceCtorEq, if_false]
    rw [hst { f with state := next } (n + 1) t, hst { f with state := next } (f.total + 1) f.throttle]
    simp only [Option.map_map]
    rfl
  | sequence =>
    simp only [act, reduceCtorEq, if_false]
    rw [hst { f with state := next } (n + 1) t, hst { f with state := next } (f.total + 1) f.throttle]
    simp only [Option.map_map]
    rfl
  | fletcher =>
    simp only [act, reduceCtorEq, if_false]
    rw [hst { f with state := next } (n + 1) t, hst { f with state := next } (f.total + 1) f.throttle]
    simp only [Option.map_map]
    congr 1
    funext g
    simp only [Function.comp, actFletcher]
    split <;> [rfl; (split <;> [rfl; (split <;> rfl)])]
  | payload =>
    simp only [act, reduceCtorEq, if_false]
    rw [hst { f with state := next } (n + 1) t, hst { f with state := next } (f.total + 1) f.throttle]
    cases store ch { f with state := next } with
    | none => rfl
    | some g =>
      simp only [Option.map_some, Option.bind_some, actPayload]
      split <;> rfl
  | kermit =>
    simp only [act, reduceCtorEq, if_false]
    rw [hst { f with state := next } (n + 1) t, hst { f with state := next } (f.total + 1) f.throttle]
    simp only [Option.map_map]
    congr 1
    funext g
    simp only [Function.comp, actKermit]
    repeat' split
    all_goals rfl
  | terminate =>
    simp only [act, reduceCtorEq, if_false, actTerminate]
    repeat' split
    all_goals rfl

/-- Everything but the octet count and the flow control flag. -/
def visible (f : Framer) : Framer := { f with total := 0, throttle := false }

/-- The flow control flag the octets call for. -/
def lastFlow (t : Bool) (bytes : List Byte) : Bool :=
  bytes.foldl (fun t c => if c = 0x11#8 then false else if c = 0x13#8 then true else t) t

theorem flow_aux (f g : Framer) (bytes : List Byte) (h : visible f = visible g) :
    (feed f bytes).map visible = (feed g (bytes.filter notFlow)).map visible := by
  induction bytes generalizing f g with
  | nil => simp [feed, h]
  | cons c rest ih =>
    by_cases hc : kind c = .flow
    · have : notFlow c = false := by revert c; decide +kernel
      obtain ⟨t, hm⟩ := flow_step f c hc
      rw [List.filter_cons_of_neg (by simp [this]), feed, hm, Option.bind_some]
      exact ih _ g (by rw [← h]; rfl)
    · have : notFlow c = true := by revert c; decide +kernel
      rw [List.filter_cons_of_pos this, feed, feed]
      have hf : f = { visible f with total := f.total, throttle := f.throttle } := rfl
      have hg : g = { visible g with total := g.total, throttle := g.throttle } := rfl
      obtain ⟨n1, h1⟩ := machineByte_ignores (visible f) f.total f.throttle c hc
      obtain ⟨n2, h2⟩ := machineByte_ignores (visible g) g.total g.throttle c hc
      rw [← hf] at h1
      rw [← hg] at h2
      rw [h1, h2, h]
      cases machineByte (visible g) c with
      | none => rfl
      | some x =>
        simp only [Option.map_some, Option.bind_some]
        exact ih _ _ rfl

/-- C10: XON and XOFF anywhere in the stream make no difference to what is
received: every field (state, buffer, length, sequence numbers, ...) but the octet
count and the flow control flag is what it would be without them. -/
theorem framer_flow_control_transparent (f : Framer) (bytes : List Byte) :
    (feed f bytes).map visible = (feed f (bytes.filter notFlow)).map visible :=
  flow_aux f f bytes rfl

theorem machineByte_throttle (f g : Framer) (c : Byte) (h : machineByte f c = some g) :
    g.throttle = if c = 0x11#8 then false else if c = 0x13#8 then true else f.throttle := by
  unfold machineByte at h
  generalize (if (escaped f.state && kind c == Kind.other) = true then c ^^^ MASK else c) = ch at h
  generalize transition f.state f.limit (kind c) = tr at h
  obtain ⟨next, action⟩ := tr
  simp only [] at h
  have hx : (if c = XON then false else if c = XOFF then true else f.throttle) =
      (if c = 0x11#8 then false else if c = 0x13#8 then true else f.throttle) := rfl
  rw [hx] at h
  generalize (if c = 0x11#8 then false else if c = 0x13#8 then true else f.throttle) = t at h ⊢
  have hst : ∀ (x y : Framer), store ch x = some y → y.throttle = x.throttle := by
    intro x y hy
    unfold store at hy
    by_cases h0 : x.limit = 0
    · simp [h0] at hy
    · simp only [h0, if_false] at hy
      split at hy <;> first
        | (cases hy; rfl)
        | (split at hy <;> first | (cases hy; rfl) | cases hy)
        | cases hy
  cases action with
  | reset => cases h; rfl
  | consume => cases h; rfl
  | store => exact hst _ _ h
  | length =>
    simp only [act, Option.map_eq_some_iff] at h
    obtain ⟨x, hx, rfl⟩ := h
    exact hst _ _ hx
  | sequence =>
    simp only [act, Option.map_eq_some_iff] at h
    obtain ⟨x, hx, rfl⟩ := h
    exact hst _ _ hx
  | fletcher =>
    simp only [act, Option.map_eq_some_iff] at h
    obtain ⟨x, hx, rfl⟩ := h
    have := hst _ _ hx
    simp only [actFletcher]
    repeat' split
    all_goals exact this
  | payload =>
    simp only [act, Option.bind_eq_some_iff] at h
    obtain ⟨x, hx, hy⟩ := h
    have := hst _ _ hx
    unfold actPayload at hy
    split at hy <;> cases hy
    exact this
  | kermit =>
    simp only [act, Option.map_eq_some_iff] at h
    obtain ⟨x, hx, rfl⟩ := h
    have := hst _ _ hx
    simp only [actKermit]
    repeat' split
    all_goals exact this
  | terminate =>
    simp only [act, actTerminate] at h
    repeat' split at h
    all_goals cases h
    all_goals rfl

/-- C10 (flag): the flow control flag is what the last XON or XOFF asked for. -/
theorem framer_throttle_is_last (f g : Framer) (bytes : List Byte) (h : feed f bytes = some g) :
    g.throttle = lastFlow f.throttle bytes := by
  induction bytes generalizing f with
  | nil => cases h; rfl
  | cons c rest ih =>
    rw [feed, Option.bind_eq_some_iff] at h
    obtain ⟨x, hx, hr⟩ := h
    rw [ih x hr, machineByte_throttle f x c hx]
    rfl

/-- XOFF inside the header, inside an escape sequence and inside the CRC. -/
example :
    let f := init [0#8] 1
    let wire := [0x7e, 0x00, 0x01, 0x13, 0x00, 0x00, 0x01, 0x03, 0x7d, 0x13, 0x5d, 0x2a, 0x41, 0x13, 0x42, 0x0a]
    (feed f wire).map (fun g => (g.state, g.buffer, g.throttle, g.total)) =
      some (.complete, [0x7d], true, 16) ∧
    (feed f (wire.filter notFlow)).map (fun g => (g.state, g.buffer, g.throttle, g.total)) =
      some (.complete, [0x7d], false, 13) := by
  decide +kernel

/-! ## C11 -/

theorem Carries.clean {w d : List Byte} (h : Carries w d) :
    0x7e#8 ∉ w ∧ 0x0a#8 ∉ w ∧ 0x11#8 ∉ w ∧ 0x13#8 ∉ w := by
  induction h with
  | nil => simp
  | bare c w d hc _ ih =>
    simp only [specials, List.mem_cons, List.not_mem_nil, or_false, not_or] at hc ⊢
    refine ⟨⟨Ne.symm hc.2.1, ih.1⟩, ⟨Ne.symm hc.1, ih.2.1⟩, ⟨Ne.symm hc.2.2.2.1, ih.2.2.1⟩,
      ⟨Ne.symm hc.2.2.2.2, ih.2.2.2⟩⟩
  | stuffed c w d hc _ ih =>
    simp only [specials, List.mem_cons, List.not_mem_nil, or_false, not_or] at hc ⊢
    refine ⟨⟨by decide, Ne.symm hc.2.1, ih.1⟩, ⟨by decide, Ne.symm hc.1, ih.2.1⟩,
      ⟨by decide, Ne.symm hc.2.2.2.1, ih.2.2.1⟩, ⟨by decide, Ne.symm hc.2.2.2.2, ih.2.2.2⟩⟩

theorem IsFrame.clean {wire payload : List Byte} {seq : BitVec 16} (h : IsFrame wire payload seq) :
    ∃ mid, wire = 0x7e#8 :: mid ++ [0x0a#8] ∧
      0x7e#8 ∉ mid ∧ 0x0a#8 ∉ mid ∧ 0x11#8 ∉ mid ∧ 0x13#8 ∉ mid := by
  obtain ⟨_, body, rfl, hc⟩ := h
  have := (Kermit.kermit16 payload 0#16).isLt
  generalize (Kermit.kermit16 payload 0#16).toNat = crc at *
  obtain ⟨h1, h2, h3, h4⟩ := hc.clean
  have hp : ∀ c ∈ printable crc, 0x20 ≤ c.toNat ∧ c.toNat ≤ 0x5f := by
    intro c hc
    simp only [printable, List.mem_cons, List.not_mem_nil, or_false] at hc
    rcases hc with rfl | rfl | rfl <;> simp <;> omega
  have ho : ∀ c : Byte, 0x20 ≤ c.toNat ∧ c.toNat ≤ 0x5f →
      c ≠ 0x7e#8 ∧ c ≠ 0x0a#8 ∧ c ≠ 0x11#8 ∧ c ≠ 0x13#8 := by decide +kernel
  refine ⟨body ++ printable crc, by simp, ?_, ?_, ?_, ?_⟩ <;>
    (rw [List.mem_append, not_or]; refine ⟨by assumption, fun hc => ?_⟩; have := ho _ (hp _ hc); simp at this)

/-- C11: of the octets a writer emits for a payload the flag is only the first,
the newline only the last, and XON and XOFF do not occur. -/
theorem framer_output_clean (s s' : Framer) (payload wire : List Byte)
    (h : writer s payload = some (wire, s')) :
    ∃ mid, wire = 0x7e#8 :: mid ++ [0x0a#8] ∧
      0x7e#8 ∉ mid ∧ 0x0a#8 ∉ mid ∧ 0x11#8 ∉ mid ∧ 0x13#8 ∉ mid := by
  by_cases hl : payload.length ≤ 65535
  · obtain ⟨w, hw, hf⟩ := (framer_writer_emits_frame s payload).1 hl
    rw [hw] at h
    cases h
    exact hf.clean
  · rw [(framer_writer_emits_frame s payload).2 (by omega)] at h
    cases h

example : (writer (init [] 0) [0x7e, 0x11]).map (·.1) =
    some [0x7e, 0x00, 0x02, 0x00, 0x00, 0x02, 0x06, 0x7d, 0x5e, 0x7d, 0x31, 0x26, 0x4f, 0x3c, 0x0a] := by
  decide +kernel

/-! ## C12 -/

/-- The states from which the documentation says the next FLAG starts a frame. -/
def receptive (s : St) : Bool :=
  match s with
  | .reset | .flag | .length | .sequence | .fletcher | .payload | .kermit | .newline => true
  | _ => false

/-- The states in the middle of an escape sequence. -/
def midEscape (s : St) : Bool :=
  match s with
  | .lengthEscaped | .sequenceEscaped | .fletcherEscaped | .payloadEscaped => true
  | _ => false

/-- C12: after any history that leaves the receiver neither in a terminal state
nor in the middle of an escape sequence, a valid frame is received. -/
theorem framer_resynchronises (buffer : List Byte) (size : Nat) (hb : size ≤ buffer.length)
    (ops : List Op) (f : Framer) (hf : history (init buffer size) ops = some f)
    (hs : receptive f.state = true) (wire payload : List Byte) (seq : BitVec 16)
    (hw : IsFrame wire payload seq) (hn : payload.length ≤ size) :
    ∃ f', feed f wire = some f' ∧ f'.state = .complete ∧ f'.buffer.take payload.length = payload ∧
      f'.length = payload.length ∧ f'.sequence = seq := by
  obtain ⟨f', h1, h2, h3, _, _, h⟩ := TInv.all buffer size hb ops
  rw [hf] at h1
  cases h1
  have h2' : f.size = size := h2
  have h3' : f.buffer.length = buffer.length := h3
  have hst : Startable f := by
    unfold Startable
    by_cases hfl : f.state = .flag
    · refine Or.inr (Or.inr (Or.inr (Or.inr (Or.inr (Or.inr (Or.inr ⟨hfl, ?_⟩))))))
      rcases h with h | ⟨g, mid, _, hw⟩ | ⟨h, _⟩ | ⟨h, _⟩
      · rw [hfl] at h; simp at h
      · rcases hw with ⟨d, hp, _⟩ | ⟨_, d, _, _, hp, _⟩ | ⟨_, _, _, _, _, hs, _⟩ | ⟨_, _, _, _, _, hs, _⟩
        · rcases hp with ⟨⟨h', hd⟩ | ⟨h', _⟩, hl⟩ | ⟨h', _⟩ | ⟨h', _⟩ | ⟨h', _⟩
          · subst hd; exact Or.inl ⟨Or.inl ⟨hfl, rfl⟩, hl⟩
          all_goals (rw [hfl] at h'; cases h')
        · rcases esc_state hp with h | h | h | h <;> (rw [hfl] at h; cases h)
        · rw [hfl] at hs; cases hs
        · rw [hfl] at hs; cases hs
      · rw [hfl] at h; cases h
      · rw [hfl] at h; cases h
    · revert hs hfl
      cases f.state <;> simp [receptive]
  rw [isFrame_iff] at hw
  obtain ⟨h16, body, k1, k2, k3, hk, rfl, hsf⟩ := hw
  obtain ⟨f', g1, g2, _, _, _, g6, g7, g8, _⟩ :=
    feed_frame f (by omega) hst body payload seq (by omega) h16 hsf k1 k2 k3 hk
  exact ⟨f', g1, g2, g6, g7, g8⟩

theorem feed_stuck (f : Framer) (h : Stuck f.state) (bytes : List Byte) :
    ∃ n t, feed f bytes = some { f with total := n, throttle := t } := by
  induction bytes generalizing f with
  | nil => exact ⟨_, _, rfl⟩
  | cons c rest ih =>
    obtain ⟨t, hm⟩ := stuck_step f h c
    obtain ⟨n, t', hr⟩ := ih { f with total := f.total + 1, throttle := t } h
    exact ⟨n, t', by rw [feed, hm]; exact hr⟩

/-- C12 (escape): in the middle of an escape sequence the frame is lost and an
abort reported; having been reset, the receiver takes the next frame. -/
theorem framer_resynchronises_after_abort (buffer : List Byte) (size : Nat)
    (hb : size ≤ buffer.length) (ops : List Op) (f : Framer)
    (hf : history (init buffer size) ops = some f) (hs : midEscape f.state = true)
    (wire payload wire' payload' : List Byte) (seq seq' : BitVec 16)
    (hw : IsFrame wire payload seq) (hw' : IsFrame wire' payload' seq')
    (hn : payload'.length ≤ size) :
    ∃ g f', feed f wire = some g ∧ g.state = .abort ∧
      feed (reset g) wire' = some f' ∧ f'.state = .complete ∧
      f'.buffer.take payload'.length = payload' ∧ f'.length = payload'.length ∧
      f'.sequence = seq' := by
  obtain ⟨_, body, rfl, _⟩ := hw
  obtain ⟨f1, h1, h2, h3, _⟩ := TInv.all buffer size hb ops
  rw [hf] at h1
  cases h1
  have h2' : f.size = size := h2
  have h3' : f.buffer.length = buffer.length := h3
  have hk : kind 0x7e#8 = .flag := by decide
  have hm : machineByte f 0x7e#8 = some { f with total := f.total + 1, state := .abort } := by
    unfold machineByte
    have ht : transition f.state f.limit .flag = (.abort, .consume) := by
      revert hs
      cases f.state <;> simp [midEscape, transition]
    rw [hk, ht]
    have e1 : ¬ (0x7e#8 : Byte) = XON := by decide
    have e2 : ¬ (0x7e#8 : Byte) = XOFF := by decide
    simp only [e1, e2, if_false]
    rfl
  rw [List.cons_append, List.cons_append, feed, hm, Option.bind_some]
  obtain ⟨n, t, hr⟩ := feed_stuck { f with total := f.total + 1, state := .abort }
    (by simp [Stuck]) (body ++ printable (Kermit.kermit16 payload 0#16).toNat ++ [0x0a#8])
  rw [hr]
  obtain ⟨f', g1, g2, g3, g4, g5, _⟩ := framer_accepts_valid
    { f with total := n, state := .abort, throttle := t } (by show f.size ≤ f.buffer.length; omega)
    wire' payload' seq' hw' (by show payload'.length ≤ f.size; omega)
  exact ⟨_, f', rfl, rfl, g1, g2, g3, g4, g5⟩

/-- Garbage ending inside a bogus payload, and garbage ending with an escape. -/
example :
    let f := init [0#8, 0#8] 2
    let w := (writer f [0x41, 0x42]).map (·.1) |>.getD []
    ((feed f (w.take 8 ++ w)).map fun g => (g.state, g.buffer)) = some (.complete, [0x41, 0x42]) ∧
    ((feed f (w.take 8 ++ [0x7d] ++ w)).map fun g => g.state) = some .abort := by
  decide +kernel

/-! ## C13 -/

/-- Receiving frames one after the other, resetting the receiver in between. -/
def receiveAll (f : Framer) : List (List Byte) → Option Framer
  | [] => some f
  | w :: ws => (feed (reset f) w).bind (receiveAll · ws)

/-- C13 (one frame): the counts after a frame compare its number with the last one. -/
theorem framer_counts (f : Framer) (hb : f.size ≤ f.buffer.length)
    (wire payload : List Byte) (seq : BitVec 16) (hf : IsFrame wire payload seq)
    (hn : payload.length ≤ f.size) :
    ∃ f', feed (reset f) wire = some f' ∧ f'.state = .complete ∧
      (∀ k : Nat, k < 65536 → seq = f.sequence + 1 + BitVec.ofNat 16 k → (getMissing f').toNat = k) ∧
      (∀ k : Nat, k < 65535 → seq = f.sequence - BitVec.ofNat 16 k → (getDuplicated f').toNat = k + 1) ∧
      (seq = f.sequence + 1 → getMissing f' = 0 ∧ getDuplicated f' = 0) := by
  obtain ⟨f', h1, h2, _, _, h5, h6, _⟩ := framer_accepts_valid f hb wire payload seq hf hn
  refine ⟨f', h1, h2, ?_, ?_, ?_⟩
  · intro k hk hs
    unfold getMissing
    rw [h5, h6, hs]
    have := f.sequence.isLt
    simp [BitVec.toNat_sub, BitVec.toNat_add]
    omega
  · intro k hk hs
    unfold getDuplicated
    rw [h5, h6, hs]
    have := f.sequence.isLt
    simp [BitVec.toNat_sub, BitVec.toNat_add]
    omega
  · intro hs
    unfold getMissing getDuplicated
    rw [h5, h6, hs]
    constructor <;> (apply BitVec.eq_of_toNat_eq; have := f.sequence.isLt; simp [BitVec.toNat_sub, BitVec.toNat_add]; try omega)

/-- C13 (ideal channel): after any number of consecutive frames, in particular
more than 65536 of them, nothing is reported missing or duplicated. -/
theorem framer_ideal_channel (f : Framer) (hb : f.size ≤ f.buffer.length)
    (frames : List (List Byte × List Byte)) (hne : frames ≠ [])
    (hv : ∀ i, ∀ h : i < frames.length,
      IsFrame frames[i].1 frames[i].2 (f.sequence + 1 + BitVec.ofNat 16 i) ∧
        frames[i].2.length ≤ f.size) :
    ∃ f', receiveAll f (frames.map (·.1)) = some f' ∧ f'.state = .complete ∧
      getMissing f' = 0 ∧ getDuplicated f' = 0 ∧
      f'.sequence = f.sequence + BitVec.ofNat 16 frames.length := by
  induction frames generalizing f with
  | nil => exact absurd rfl hne
  | cons p rest ih =>
    have h0 := hv 0 (by simp)
    simp only [List.getElem_cons_zero] at h0
    obtain ⟨f1, h1, h2, h3, h4, h5, h6, h7, h8, h9, _⟩ :=
      framer_accepts_valid f hb p.1 p.2 _ h0.1 h0.2
    obtain ⟨f1', h1', _, _, _, hz⟩ := framer_counts f hb p.1 p.2 _ h0.1 h0.2
    rw [h1] at h1'
    cases h1'
    simp only [List.map_cons, receiveAll, h1, Option.bind_some]
    cases rest with
    | nil =>
      obtain ⟨z1, z2⟩ := hz (by simp)
      exact ⟨f1, rfl, h2, z1, z2, by rw [h5]; simp⟩
    | cons q rest =>
      obtain ⟨f', g1, g2, g3, g4, g5⟩ := ih f1 (by rw [h8, h9]; exact hb) (by simp) (by
        intro i hi
        have := hv (i + 1) (by simpa using hi)
        simp only [List.getElem_cons_succ] at this
        rw [h5, h8]
        refine ⟨?_, this.2⟩
        have e : f.sequence + 1 + BitVec.ofNat 16 0 + 1 + BitVec.ofNat 16 i =
            f.sequence + 1 + BitVec.ofNat 16 (i + 1) := by
          apply BitVec.eq_of_toNat_eq
          simp [BitVec.toNat_add]
          omega
        rw [e]
        exact this.1)
      refine ⟨f', g1, g2, g3, g4, ?_⟩
      rw [g5, h5]
      apply BitVec.eq_of_toNat_eq
      simp [BitVec.toNat_add]
      omega

/-- One frame lost out of three, across the wrap-around; then the last repeated. -/
example :
    let s := { init [] 0 with generated := 65534#16 }
    let f := { init [0#8] 1 with sequence := 65534#16 }
    let send (s : Framer) := (writer s [0x41]).getD ([], s)
    let (w1, s1) := send s
    let (_, s2) := send s1
    let (w3, _) := send s2
    (receiveAll f [w1, w3]).map (fun g => (getMissing g, g.sequence)) = some (1#16, 1#16) ∧
    (receiveAll f [w1, w3, w3]).map getDuplicated = some 1#16 := by
  decide +kernel

end Diminuto.Framer
