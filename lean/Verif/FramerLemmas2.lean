import Verif.FramerLemmas
import Verif.KermitLemmas
import Mathlib.Data.List.Induction
import Mathlib.Tactic.Tauto

/-!
# More helper lemmas on the Framer: whole frames and whole histories
-/

namespace Diminuto.Framer

theorem feed_append (f : Framer) (xs ys : List Byte) :
    feed f (xs ++ ys) = (feed f xs).bind (feed · ys) := by
  induction xs generalizing f with
  | nil => rfl
  | cons c xs ih =>
    simp only [List.cons_append, feed]
    cases machineByte f c with
    | none => rfl
    | some g => simpa using ih g

/-- The header of a frame: length and sequence in network order, then the checksum. -/
def headerOf (n : Nat) (seq : BitVec 16) : List Byte :=
  let h := [BitVec.ofNat 8 (n / 256), BitVec.ofNat 8 (n % 256),
    BitVec.ofNat 8 (seq.toNat / 256), BitVec.ofNat 8 (seq.toNat % 256)]
  let s := Fletcher.run ⟨0#8, 0#8⟩ h
  h ++ [s.a, s.b]

theorem headerOf_good (n : Nat) (seq : BitVec 16) (p : List Byte) :
    hdrGood (headerOf n seq ++ p) ∧ (n ≤ 65535 → announced (headerOf n seq ++ p) = n) := by
  constructor
  · rfl
  · intro hn
    show (BitVec.ofNat 8 (n % 256)).toNat + 256 * (BitVec.ofNat 8 (n / 256)).toNat = n
    simp only [BitVec.toNat_ofNat]
    omega

theorem hdrGood_append (d e : List Byte) (h : 6 ≤ d.length) : hdrGood (d ++ e) ↔ hdrGood d := by
  match d with
  | [] | [_] | [_, _] | [_, _, _] | [_, _, _, _] | [_, _, _, _, _] => simp at h
  | a :: b :: c :: x :: y :: z :: t => rfl

theorem announced_append (d e : List Byte) (h : 2 ≤ d.length) : announced (d ++ e) = announced d := by
  match d with
  | [] | [_] => simp at h
  | a :: b :: t => rfl

/-- Feeding the stuffed remainder of a good frame body ends at the CRC. -/
theorem feed_body (w d : List Byte) (hw : Stuffed w d) :
    ∀ (f : Framer) (d0 : List Byte), f.size ≤ f.buffer.length → Prog f d0 → d ≠ [] →
    hdrGood (d0 ++ d) → (d0 ++ d).length = 6 + announced (d0 ++ d) → announced (d0 ++ d) ≤ f.size →
    ∃ f', feed f w = some f' ∧ f'.state = .kermit ∧ KerP f' (d0 ++ d) [] ∧ Frame f f' := by
  -- one data octet, however it came
  have one : ∀ (f f1 : Framer) (d0 : List Byte) (b : Byte) (w d : List Byte), Stuffed w d →
      f.size ≤ f.buffer.length → DataOutcome f f1 (d0 ++ [b]) →
      (∀ (f : Framer) (d0 : List Byte), f.size ≤ f.buffer.length → Prog f d0 → d ≠ [] →
        hdrGood (d0 ++ d) → (d0 ++ d).length = 6 + announced (d0 ++ d) →
        announced (d0 ++ d) ≤ f.size →
        ∃ f', feed f w = some f' ∧ f'.state = .kermit ∧ KerP f' (d0 ++ d) [] ∧ Frame f f') →
      hdrGood (d0 ++ b :: d) → (d0 ++ b :: d).length = 6 + announced (d0 ++ b :: d) →
      announced (d0 ++ b :: d) ≤ f.size →
      ∃ f', feed f1 w = some f' ∧ f'.state = .kermit ∧ KerP f' (d0 ++ b :: d) [] ∧ Frame f f' := by
    intro f f1 d0 b w d hw hb ho ih hg hl ha
    obtain ⟨hfr, _, ho⟩ := ho
    have happ : d0 ++ b :: d = (d0 ++ [b]) ++ d := by simp
    rw [happ] at hg hl ha ⊢
    have hb1 : f1.size ≤ f1.buffer.length := by rw [hfr.1, hfr.2.1]; exact hb
    rcases ho with hp | ⟨hs, hk, hlen⟩ | ⟨_, hlen, hbad, _⟩ | ⟨_, hlen, _, hov, _⟩
    · cases hd : d with
      | nil =>
        exfalso
        rw [hd, List.append_nil] at hl
        rcases hp.length_lt hb1 with h | h <;> omega
      | cons b' d' =>
        rw [← hd]
        obtain ⟨f', h1, h2, h3, h4⟩ := ih f1 (d0 ++ [b]) hb1 hp (by rw [hd]; simp) hg hl
          (by rw [hfr.1]; exact ha)
        exact ⟨f', h1, h2, h3, hfr.trans h4⟩
    · have h2 : 2 ≤ (d0 ++ [b]).length := by omega
      rw [announced_append _ _ h2] at hl
      have hd : d = [] := by
        apply List.eq_nil_of_length_eq_zero
        rw [List.length_append] at hl
        omega
      subst hd
      cases hw
      rw [List.append_nil]
      exact ⟨f1, rfl, hs, hk, hfr⟩
    · rw [hdrGood_append _ _ (by omega)] at hg
      exact absurd hg hbad
    · rw [announced_append _ _ (by omega)] at ha
      omega
  induction hw with
  | nil => intro f d0 _ _ h; exact absurd rfl h
  | plain c w d hc hw ih =>
    intro f d0 hb hp _ hg hl ha
    obtain ⟨f1, h1, ho⟩ := plain_step f d0 hb hp c hc
    simp only [feed, h1, Option.bind_some]
    exact one f f1 d0 c w d hw hb ho ih hg hl ha
  | esc c w d hc hw ih =>
    intro f d0 hb hp _ hg hl ha
    obtain ⟨f1, h1, he, hfr, _⟩ := escape_step f d0 hp
    have hb1 : f1.size ≤ f1.buffer.length := by rw [hfr.1, hfr.2.1]; exact hb
    obtain ⟨f2, h2, ho⟩ := escaped_step f1 d0 hb1 he c hc
    simp only [feed, h1, h2, Option.bind_some]
    obtain ⟨f', g1, g2, g3, g4⟩ := one f1 f2 d0 (c ^^^ MASK) w d hw hb1 ho ih hg hl
      (by rw [hfr.1]; exact ha)
    exact ⟨f', g1, g2, g3, hfr.trans g4⟩

/-- States in which a FLAG (re)starts reception. -/
def Startable (f : Framer) : Prop :=
  f.state = .reset ∨ f.state = .length ∨ f.state = .sequence ∨ f.state = .fletcher ∨
    f.state = .payload ∨ f.state = .kermit ∨ f.state = .newline ∨ (f.state = .flag ∧ Prog f [])

theorem kermit_fields (crc : BitVec 16) :
    ∀ a b c, Kermit.crc2chars crc = (a, b, c) →
    Kermit.firstIsValid a = true ∧ Kermit.secondIsValid b = true ∧ Kermit.thirdIsValid c = true ∧
    Kermit.chars2crc a b c = crc ∧ kind a = .other ∧ kind b = .other ∧ kind c = .other := by
  intro a b c h
  have h1 := Kermit.char4 ((crc >>> 12).setWidth 4)
  have h2 := Kermit.char6 ((crc >>> 6).setWidth 6)
  have h3 := Kermit.char6 ((crc >>> 0).setWidth 6)
  rw [← Kermit.mask4] at h1
  rw [← Kermit.mask6] at h2 h3
  simp only [Kermit.crc2chars, Prod.mk.injEq] at h
  obtain ⟨rfl, rfl, rfl⟩ := h
  have hk : ∀ x : Byte, 0x20 ≤ x.toNat ∧ x.toNat ≤ 0x5f → kind x = .other := by decide +kernel
  refine ⟨h1.2.1, h2.2.1, h3.2.1, ?_, hk _ h1.2.2, hk _ h2.2.2, hk _ h3.2.2⟩
  unfold Kermit.chars2crc
  rw [h1.1, h2.1, h3.1]
  exact Kermit.recombine crc

/-- Feeding a whole frame to a startable receiver with enough room. -/
theorem feed_frame (f : Framer) (hb : f.size ≤ f.buffer.length) (hs : Startable f)
    (body payload : List Byte) (seq : BitVec 16) (hn : payload.length ≤ f.size)
    (h16 : payload.length ≤ 65535) (hw : Stuffed body (headerOf payload.length seq ++ payload))
    (k1 k2 k3 : Byte) (hk : Kermit.crc2chars (Kermit.kermit16 payload 0#16) = (k1, k2, k3)) :
    ∃ f', feed f (FLAG :: body ++ [k1, k2, k3] ++ [NEWLINE]) = some f' ∧ f'.state = .complete ∧
      f'.size = f.size ∧ f'.buffer.length = f.buffer.length ∧
      f'.buffer.drop f.size = f.buffer.drop f.size ∧
      f'.buffer.take payload.length = payload ∧ f'.length = payload.length ∧
      f'.sequence = seq ∧ f'.previous = f.sequence ∧ f'.generated = f.generated ∧
      (payload.length < f.size → f'.buffer[payload.length]? = some 0#8) ∧
      ∃ e, feed f (FLAG :: body ++ [k1, k2, k3]) = some e ∧ e.state = .newline := by
  obtain ⟨f1, h1, hp1, _, fr1, _⟩ := flag_step f hs
  have hb1 : f1.size ≤ f1.buffer.length := by rw [fr1.1, fr1.2.1]; exact hb
  obtain ⟨hgood, hann⟩ := headerOf_good payload.length seq payload
  have hann := hann h16
  obtain ⟨f2, h2, hs2, hk2, fr2⟩ := feed_body body _ hw f1 [] hb1 hp1 (by simp [headerOf]) hgood
    (by
      rw [List.nil_append, hann]
      simp [headerOf]; omega)
    (by rw [List.nil_append, hann, fr1.1]; exact hn)
  rw [List.nil_append] at hk2
  have hb2 : f2.size ≤ f2.buffer.length := by rw [fr2.1, fr2.2.1]; exact hb1
  -- what the fields hold
  have hd : hdr f2 ++ f2.buffer.take (value16 f2.length0) = headerOf payload.length seq ++ payload :=
    hk2.1.2.1.symm
  obtain ⟨hd1, hd2⟩ := List.append_inj hd (by rfl)
  have hfields : f2.length0.2 = BitVec.ofNat 8 (payload.length / 256) ∧
      f2.length0.1 = BitVec.ofNat 8 (payload.length % 256) ∧
      f2.sequence0.2 = BitVec.ofNat 8 (seq.toNat / 256) ∧
      f2.sequence0.1 = BitVec.ofNat 8 (seq.toNat % 256) := by
    simp only [hdr, headerOf, List.cons_append, List.cons.injEq] at hd1
    exact ⟨hd1.1, hd1.2.1, hd1.2.2.1, hd1.2.2.2.1⟩
  obtain ⟨e1, e2, e3, e4⟩ := hfields
  have hv : value16 f2.length0 = payload.length := by
    unfold value16; rw [e1, e2]; simp only [BitVec.toNat_ofNat]; omega
  have hsq : BitVec.ofNat 16 (value16 f2.sequence0) = seq := by
    unfold value16; rw [e3, e4]
    apply BitVec.eq_of_toNat_eq
    simp only [BitVec.toNat_ofNat]
    have := seq.isLt
    omega
  obtain ⟨v1, v2, v3, v4, o1, o2, o3⟩ := kermit_fields _ _ _ _ hk
  -- the CRC
  obtain ⟨f3, h3, fr3, b3, hs3⟩ := kermit_step f2 _ [] hs2 hk2 k1 o1
  have hs3 : f3.state = .kermit ∧ KerP f3 (headerOf payload.length seq ++ payload) [k1] := by
    rcases hs3 with ⟨a, b, _⟩ | ⟨_, _, h⟩ | ⟨_, h, _⟩
    · exact ⟨a, b⟩
    · simp at h
    · simp at h
  obtain ⟨f4, h4, fr4, b4, hs4⟩ := kermit_step f3 _ [k1] hs3.1 hs3.2 k2 o2
  have hs4 : f4.state = .kermit ∧ KerP f4 (headerOf payload.length seq ++ payload) [k1, k2] := by
    rcases hs4 with ⟨a, b, _⟩ | ⟨_, _, h⟩ | ⟨_, h, _⟩
    · exact ⟨a, b⟩
    · simp at h
    · simp at h
  -- the fields do not change in the meantime
  have field : ∀ (g : Framer) (k : List Byte), Got g (headerOf payload.length seq ++ payload) →
      g.buffer.take (value16 g.length0) = payload ∧ value16 g.length0 = payload.length ∧
      BitVec.ofNat 16 (value16 g.sequence0) = seq := by
    intro g k hg
    have hd : hdr g ++ g.buffer.take (value16 g.length0) = headerOf payload.length seq ++ payload :=
      hg.2.1.symm
    obtain ⟨hd1, hd2⟩ := List.append_inj hd (by rfl)
    simp only [hdr, headerOf, List.cons_append, List.cons.injEq] at hd1
    refine ⟨hd2, ?_, ?_⟩
    · unfold value16; rw [hd1.1, hd1.2.1]; simp only [BitVec.toNat_ofNat]; omega
    · unfold value16; rw [hd1.2.2.1, hd1.2.2.2.1]
      apply BitVec.eq_of_toNat_eq
      simp only [BitVec.toNat_ofNat]
      have := seq.isLt
      omega
  obtain ⟨f5, h5, fr5, b5, hs5⟩ := kermit_step f4 _ [k1, k2] hs4.1 hs4.2 k3 o3
  have hs5 : f5.state = .newline ∧ NewP f5 (headerOf payload.length seq ++ payload) [k1, k2, k3] := by
    rcases hs5 with ⟨_, _, h⟩ | ⟨a, b, _⟩ | ⟨_, _, h⟩
    · simp at h
    · exact ⟨a, b⟩
    · exfalso
      apply h
      rw [(field f4 [] hs4.2.1).1]
      exact ⟨v1, v2, v3, v4⟩
  have hfr : Frame f f5 := fr1.trans (fr2.trans (fr3.trans (fr4.trans fr5)))
  have hb5 : f5.size ≤ f5.buffer.length := by rw [hfr.1, hfr.2.1]; exact hb
  obtain ⟨f6, h6, s6, z6, l6, d6, t6, n6, q6, p6, g6, nul6, _⟩ := newline_step f5 _ _ hs5.1 hs5.2 hb5
  obtain ⟨g1, g2, g3⟩ := field f5 [] hs5.2.1
  refine ⟨f6, ?_, s6, by rw [z6, hfr.1], by rw [l6, hfr.2.1], ?_, ?_, by rw [n6, g2],
    by rw [q6, g3], by rw [p6, hfr.2.2.1], by rw [g6, hfr.2.2.2.2.1], ?_, f5, ?_, hs5.1⟩
  · simp only [List.cons_append, List.append_assoc, List.nil_append, feed, h1, Option.bind_some,
      feed_append, h2, h3, h4, h5, h6]
  · rw [← hfr.1, d6, hfr.1, hfr.2.2.2.2.2.2]
  · rw [← g2, t6, g1]
  · intro h
    rw [← g2]
    exact nul6 (by rw [g2, hfr.1]; exact h)
  · simp only [List.cons_append, feed, h1, Option.bind_some, feed_append, h2, h3, h4, h5]

end Diminuto.Framer

namespace Diminuto.Framer

/-! ## Validity of the CRC characters determines them -/

theorem chars_inverse (a b c : Byte) (ha : Kermit.firstIsValid a = true)
    (hb : Kermit.secondIsValid b = true) (hc : Kermit.thirdIsValid c = true) :
    Kermit.crc2chars (Kermit.chars2crc a b c) = (a, b, c) := by
  have e4 : ∀ x : Byte, Kermit.firstIsValid x = true → ∃ v : BitVec 4, x = Kermit.tochar (v.setWidth 16) := by
    decide +kernel
  have e6 : ∀ x : Byte, Kermit.secondIsValid x = true → ∃ v : BitVec 6, x = Kermit.tochar (v.setWidth 16) := by
    decide +kernel
  have e6' : ∀ x : Byte, Kermit.thirdIsValid x = true → ∃ v : BitVec 6, x = Kermit.tochar (v.setWidth 16) := by
    decide +kernel
  obtain ⟨u, rfl⟩ := e4 a ha
  obtain ⟨v, rfl⟩ := e6 b hb
  obtain ⟨w, rfl⟩ := e6' c hc
  have h1 := (Kermit.char4 u).1
  have h2 := (Kermit.char6 v).1
  have h3 := (Kermit.char6 w).1
  unfold Kermit.chars2crc
  rw [h1, h2, h3]
  unfold Kermit.crc2chars
  rw [Kermit.mask4, Kermit.mask6, Kermit.mask6]
  congr 2
  · congr 1
    apply BitVec.eq_of_getLsbD_eq
    intro i hi
    rcases (by omega : i = 0 ∨ i = 1 ∨ i = 2 ∨ i = 3) with rfl | rfl | rfl | rfl <;>
      simp
  · congr 2
    apply BitVec.eq_of_getLsbD_eq
    intro i hi
    rcases (by omega : i = 0 ∨ i = 1 ∨ i = 2 ∨ i = 3 ∨ i = 4 ∨ i = 5) with
      rfl | rfl | rfl | rfl | rfl | rfl <;> simp
  · congr 2
    apply BitVec.eq_of_getLsbD_eq
    intro i hi
    rcases (by omega : i = 0 ∨ i = 1 ∨ i = 2 ∨ i = 3 ∨ i = 4 ∨ i = 5) with
      rfl | rfl | rfl | rfl | rfl | rfl <;> simp


/-! ## Histories -/

/-- What an application may do with a receiver. -/
inductive Op
  | octet (c : Byte)
  | eof
  | reset
  deriving DecidableEq, Repr

/-- One operation on a receiver. -/
def perform (f : Framer) : Op → Option Framer
  | .octet c => machine f (some c)
  | .eof => machine f none
  | .reset => some (reset f)

/-- A history of operations. -/
def history (f : Framer) : List Op → Option Framer
  | [] => some f
  | op :: ops => (perform f op).bind (history · ops)

theorem history_append (f : Framer) (xs ys : List Op) :
    history f (xs ++ ys) = (history f xs).bind (history · ys) := by
  induction xs generalizing f with
  | nil => rfl
  | cons c xs ih =>
    simp only [List.cons_append, history]
    cases perform f c with
    | none => rfl
    | some g => simpa using ih g

theorem history_snoc (f g : Framer) (xs : List Op) (op : Op) (h : history f xs = some g) :
    history f (xs ++ [op]) = perform g op := by
  rw [history_append, h]
  simp [history]

/-- Octets other than XON and XOFF. -/
def solid (w : List Byte) : List Byte := w.filter fun c => kind c ≠ .flow

/-- Where reception stands: `w` is the octets since the FLAG, `b` the buffer then. -/
def WInv (b : List Byte) (f : Framer) (w : List Byte) : Prop :=
  (∃ d, Prog f d ∧ Stuffed w d ∧ (d.length < 6 → f.buffer = b)) ∨
  (∃ w' d, w = w' ++ [ESCAPE] ∧ Stuffed w' d ∧ EscProg f d ∧ (d.length < 6 → f.buffer = b)) ∨
  (∃ w' d k, w = w' ++ k ∧ Stuffed w' d ∧ f.state = .kermit ∧ KerP f d k) ∨
  (∃ w' d k, w = w' ++ k ∧ Stuffed w' d ∧ f.state = .newline ∧ NewP f d k)

/-- The octets since the last FLAG, in a history. -/
def Since (f0 : Framer) (hist : List Op) (g : Framer) (mid : List Byte) (post : List Op) : Prop :=
  ∃ pre, hist = pre ++ (Op.octet FLAG :: mid.map Op.octet) ++ post ∧ history f0 pre = some g

/-- A body followed by its verified CRC. -/
def Verified (f : Framer) (w : List Byte) : Prop :=
  ∃ w' d k, w = w' ++ k ∧ Stuffed w' d ∧ NewP f d k

/-- The invariant of the receiver over its history. -/
def TInv (f0 : Framer) (hist : List Op) (f : Framer) : Prop :=
  f.size = f0.size ∧ f.buffer.length = f0.buffer.length ∧ f0.size ≤ f0.buffer.length ∧
  f.buffer.drop f0.size = f0.buffer.drop f0.size ∧
  ((f.state = .reset ∨ f.state = .failed ∨ f.state = .invalid ∨ f.state = .abort ∨ f.state = .final) ∨
   (∃ g mid, Since f0 hist g mid [] ∧ WInv g.buffer f (solid mid)) ∨
   (f.state = .overflow ∧ ∃ g mid, ∃ post : List Byte, ∃ d, Since f0 hist g mid (post.map Op.octet) ∧
     Stuffed (solid mid) d ∧ d.length = 6 ∧ hdrGood d ∧ f.size < announced d ∧ f.buffer = g.buffer) ∨
   (f.state = .complete ∧ ∃ g mid, ∃ post : List Byte, ∃ e, Since f0 hist g (mid ++ [NEWLINE]) (post.map Op.octet) ∧
     Verified e (solid mid) ∧ e.size = f.size ∧ e.buffer.length = f.buffer.length ∧
     f.buffer.take (value16 e.length0) = e.buffer.take (value16 e.length0) ∧
     f.length = value16 e.length0 ∧ f.sequence = BitVec.ofNat 16 (value16 e.sequence0) ∧
     ∀ pre, hist = pre ++ post.map Op.octet → ∃ e', history f0 pre = some e' ∧ e'.state = .complete))

theorem Since.snoc {f0 g : Framer} {hist : List Op} {mid : List Byte} (h : Since f0 hist g mid [])
    (c : Byte) : Since f0 (hist ++ [.octet c]) g (mid ++ [c]) [] := by
  obtain ⟨pre, h1, h2⟩ := h
  exact ⟨pre, by rw [h1]; simp, h2⟩

theorem Since.post {f0 g : Framer} {hist : List Op} {mid : List Byte} {post : List Byte}
    (h : Since f0 hist g mid (post.map Op.octet)) (c : Byte) :
    Since f0 (hist ++ [.octet c]) g mid ((post ++ [c]).map Op.octet) := by
  obtain ⟨pre, h1, h2⟩ := h
  exact ⟨pre, by rw [h1]; simp, h2⟩

/-- The states in which an octet changes nothing but `total` and `throttle`. -/
def Stuck (s : St) : Prop :=
  s = .failed ∨ s = .invalid ∨ s = .abort ∨ s = .final ∨ s = .overflow ∨ s = .complete ∨ s = .idle

theorem stuck_step (f : Framer) (h : Stuck f.state) (c : Byte) :
    ∃ t, machineByte f c = some { f with total := f.total + 1, throttle := t } := by
  refine ⟨if c = XON then false else if c = XOFF then true else f.throttle, ?_⟩
  unfold machineByte
  have ht : transition f.state f.limit (kind c) = (f.state, .consume) := by
    rcases h with h | h | h | h | h | h | h <;> rw [h] <;> rfl
  rw [ht]
  rfl

theorem flow_step (f : Framer) (c : Byte) (hc : kind c = .flow) :
    ∃ t, machineByte f c = some { f with total := f.total + 1, throttle := t } := by
  refine ⟨if c = XON then false else if c = XOFF then true else f.throttle, ?_⟩
  unfold machineByte
  have ht : transition f.state f.limit (kind c) = (f.state, .consume) := by
    rw [hc]
    cases f.state <;> rfl
  rw [ht]
  rfl

theorem reset_step (f : Framer) (h : f.state = .reset) (c : Byte) (hc : kind c ≠ .flag) :
    ∃ t, machineByte f c = some { f with total := f.total + 1, throttle := t } := by
  refine ⟨if c = XON then false else if c = XOFF then true else f.throttle, ?_⟩
  unfold machineByte
  have ht : transition f.state f.limit (kind c) = (f.state, .consume) := by
    rw [h]
    cases hk : kind c <;> first | rfl | exact absurd hk hc
  rw [ht]
  rfl

/-- An octet that ends reception with an error. -/
theorem error_step (f : Framer) (c : Byte)
    (ht : (transition f.state f.limit (kind c)).1 = .invalid ∨
      (transition f.state f.limit (kind c)).1 = .abort)
    (ha : (transition f.state f.limit (kind c)).2 = .consume) :
    ∃ f', machineByte f c = some f' ∧ (f'.state = .invalid ∨ f'.state = .abort) ∧
      f'.size = f.size ∧ f'.buffer = f.buffer := by
  unfold machineByte
  simp only [ha, act]
  exact ⟨_, rfl, ht, rfl, rfl⟩

theorem kind_cases (c : Byte) : c = NEWLINE ∧ kind c = .newline ∨ c = FLAG ∧ kind c = .flag ∨
    c = ESCAPE ∧ kind c = .escape ∨ kind c = .flow ∨ kind c = .other := by
  revert c; decide +kernel

theorem solid_snoc (w : List Byte) (c : Byte) :
    solid (w ++ [c]) = if kind c = .flow then solid w else solid w ++ [c] := by
  unfold solid
  rw [List.filter_append]
  by_cases h : kind c = .flow <;> simp [h]

theorem Stuck.terminal {s : St} (h : s = .failed ∨ s = .invalid ∨ s = .abort ∨ s = .final) : Stuck s := by
  unfold Stuck; tauto

/-- An octet preserves the invariant. -/
theorem TInv.octet {f0 : Framer} {hist : List Op} {f : Framer} (h : TInv f0 hist f)
    (hh : history f0 hist = some f) (c : Byte) :
    ∃ f', machineByte f c = some f' ∧ TInv f0 (hist ++ [.octet c]) f' := by
  obtain ⟨hsz, hlen, hb0, hdrop, h⟩ := h
  have hb : f.size ≤ f.buffer.length := by rw [hsz, hlen]; exact hb0
  -- restarting on a FLAG
  have restart : c = FLAG → (f.state = .reset ∨ f.state = .length ∨ f.state = .sequence ∨
      f.state = .fletcher ∨ f.state = .payload ∨ f.state = .kermit ∨ f.state = .newline ∨
      (f.state = .flag ∧ Prog f [])) →
      ∃ f', machineByte f c = some f' ∧ TInv f0 (hist ++ [.octet c]) f' := by
    intro hc hs
    subst hc
    obtain ⟨f', h1, hp, hst, fr, hbuf⟩ := flag_step f hs
    refine ⟨f', h1, by rw [fr.1, hsz], by rw [fr.2.1, hlen], hb0, by rw [hbuf]; exact hdrop, ?_⟩
    exact Or.inr (Or.inl ⟨f, [], ⟨hist, by simp, hh⟩, Or.inl ⟨[], hp, .nil, fun _ => hbuf⟩⟩)
  have err : ∀ f', f'.size = f.size → f'.buffer = f.buffer →
      (f'.state = .invalid ∨ f'.state = .abort) → TInv f0 (hist ++ [.octet c]) f' := by
    intro f' h1 h2 h3
    refine ⟨by rw [h1, hsz], by rw [h2, hlen], hb0, by rw [h2, hdrop], Or.inl ?_⟩
    rcases h3 with h3 | h3 <;> simp [h3]
  rcases h with h | ⟨g, mid, hsin, hw⟩ | ⟨hst, g, mid, post, d, hsin, hrest⟩ |
      ⟨hst, g, mid, post, e, hsin, hrest⟩
  · by_cases hr : f.state = .reset
    · by_cases hc : kind c = .flag
      · have : c = FLAG := by
          rcases kind_cases c with ⟨_, hk⟩ | ⟨h, _⟩ | ⟨_, hk⟩ | hk | hk
          · rw [hk] at hc; cases hc
          · exact h
          · rw [hk] at hc; cases hc
          · rw [hk] at hc; cases hc
          · rw [hk] at hc; cases hc
        exact restart this (Or.inl hr)
      · obtain ⟨t, h1⟩ := reset_step f hr c hc
        exact ⟨_, h1, hsz, hlen, hb0, hdrop, Or.inl (Or.inl hr)⟩
    · have hs : f.state = .failed ∨ f.state = .invalid ∨ f.state = .abort ∨ f.state = .final := by
        rcases h with h | h
        · exact absurd h hr
        · exact h
      obtain ⟨t, h1⟩ := stuck_step f (Stuck.terminal hs) c
      exact ⟨_, h1, hsz, hlen, hb0, hdrop, Or.inl h⟩
  · by_cases hflow : kind c = .flow
    · obtain ⟨t, h1⟩ := flow_step f c hflow
      refine ⟨_, h1, hsz, hlen, hb0, hdrop, Or.inr (Or.inl ⟨g, mid ++ [c], hsin.snoc c, ?_⟩)⟩
      rw [solid_snoc, if_pos hflow]
      exact hw
    · -- a data octet
      have data : ∀ f' w d, solid (mid ++ [c]) = w → Stuffed w d →
          (d.length ≤ 6 → f.buffer = g.buffer) → DataOutcome f f' d →
          TInv f0 (hist ++ [.octet c]) f' := by
        intro f' w d hw hs hbuf ho
        obtain ⟨fr, hb6, ho⟩ := ho
        refine ⟨by rw [fr.1, hsz], by rw [fr.2.1, hlen], hb0, ?_, ?_⟩
        · rw [← hsz, fr.2.2.2.2.2.2, hsz, hdrop]
        · rcases ho with hp | ⟨hst, hk, _⟩ | ⟨hst, _⟩ | ⟨hst, hl, hgood, hov, hbb⟩
          · refine Or.inr (Or.inl ⟨g, mid ++ [c], hsin.snoc c, Or.inl ⟨d, hp, by rw [hw]; exact hs, ?_⟩⟩)
            intro h6
            rw [hb6 (by omega), hbuf (by omega)]
          · refine Or.inr (Or.inl ⟨g, mid ++ [c], hsin.snoc c, Or.inr (Or.inr (Or.inl
              ⟨w, d, [], by rw [hw, List.append_nil], hs, hst, hk⟩))⟩)
          · exact Or.inl (Or.inr (Or.inl hst))
          · refine Or.inr (Or.inr (Or.inl ⟨hst, g, mid ++ [c], [], d, hsin.snoc c,
              by rw [hw]; exact hs, hl, hgood, by rw [fr.1]; exact hov, ?_⟩))
            rw [hbb, hbuf (by omega)]
      have hsol : solid (mid ++ [c]) = solid mid ++ [c] := by rw [solid_snoc, if_neg hflow]
      rcases hw with ⟨d, hp, hst, hbuf⟩ | ⟨w', d, hw, hst, hp, hbuf⟩ | ⟨w', d, k, hw, hst, hs, hk⟩ |
          ⟨w', d, k, hw, hst, hs, hk⟩
      · rcases kind_cases c with ⟨_, hc⟩ | ⟨hc, _⟩ | ⟨hc, _⟩ | hc | hc
        · obtain ⟨f', h1, h2, h3, h4⟩ := error_step f c
            (by rcases hp.state_cases with h | h | h | h | h <;> (rw [h, hc]; left; rfl))
            (by rcases hp.state_cases with h | h | h | h | h <;> (rw [h, hc]; rfl))
          exact ⟨f', h1, err f' h3 h4 h2⟩
        · refine restart hc ?_
          rcases hp.state_cases with h | h | h | h | h
          · refine Or.inr (Or.inr (Or.inr (Or.inr (Or.inr (Or.inr (Or.inr ⟨h, ?_⟩))))))
            rcases hp with ⟨⟨_, hd⟩ | ⟨h', _⟩, hl⟩ | ⟨h', _⟩ | ⟨h', _⟩ | ⟨h', _⟩
            · subst hd; exact Or.inl ⟨Or.inl ⟨h, rfl⟩, hl⟩
            all_goals (rw [h] at h'; cases h')
          all_goals simp [h]
        · subst hc
          obtain ⟨f', h1, hp', fr, hbb⟩ := escape_step f d hp
          refine ⟨f', h1, by rw [fr.1, hsz], by rw [fr.2.1, hlen], hb0, by rw [hbb, hdrop],
            Or.inr (Or.inl ⟨g, mid ++ [ESCAPE], hsin.snoc _, Or.inr (Or.inl ⟨solid mid, d, hsol, hst, hp', ?_⟩)⟩)⟩
          intro h6
          rw [hbb, hbuf h6]
        · exact absurd hc hflow
        · obtain ⟨f', h1, ho⟩ := plain_step f d hb hp c hc
          refine ⟨f', h1, data f' _ _ hsol (hst.snoc_plain hc) ?_ ho⟩
          intro h6
          simp at h6
          exact hbuf (by omega)
      · rcases kind_cases c with ⟨_, hc⟩ | ⟨_, hc⟩ | ⟨_, hc⟩ | hc | hc
        · obtain ⟨f', h1, h2, h3, h4⟩ := error_step f c
            (by rcases esc_state hp with h | h | h | h <;> (rw [h, hc]; left; rfl))
            (by rcases esc_state hp with h | h | h | h <;> (rw [h, hc]; rfl))
          exact ⟨f', h1, err f' h3 h4 h2⟩
        · obtain ⟨f', h1, h2, h3, h4⟩ := error_step f c
            (by rcases esc_state hp with h | h | h | h <;> (rw [h, hc]; right; rfl))
            (by rcases esc_state hp with h | h | h | h <;> (rw [h, hc]; rfl))
          exact ⟨f', h1, err f' h3 h4 h2⟩
        · obtain ⟨f', h1, h2, h3, h4⟩ := error_step f c
            (by rcases esc_state hp with h | h | h | h <;> (rw [h, hc]; left; rfl))
            (by rcases esc_state hp with h | h | h | h <;> (rw [h, hc]; rfl))
          exact ⟨f', h1, err f' h3 h4 h2⟩
        · exact absurd hc hflow
        · obtain ⟨f', h1, ho⟩ := escaped_step f d hb hp c hc
          refine ⟨f', h1, data f' _ _ (hsol.trans (by rw [hw])) (hst.snoc_esc hc) ?_ ho⟩
          intro h6
          simp at h6
          exact hbuf (by omega)
      · rcases kind_cases c with ⟨_, hc⟩ | ⟨hc, _⟩ | ⟨_, hc⟩ | hc | hc
        · obtain ⟨f', h1, h2, h3, h4⟩ := error_step f c (by rw [hs, hc]; left; rfl) (by rw [hs, hc]; rfl)
          exact ⟨f', h1, err f' h3 h4 h2⟩
        · exact restart hc (by simp [hs])
        · obtain ⟨f', h1, h2, h3, h4⟩ := error_step f c (by rw [hs, hc]; left; rfl) (by rw [hs, hc]; rfl)
          exact ⟨f', h1, err f' h3 h4 h2⟩
        · exact absurd hc hflow
        · obtain ⟨f', h1, fr, hbb, ho⟩ := kermit_step f d k hs hk c hc
          refine ⟨f', h1, by rw [fr.1, hsz], by rw [fr.2.1, hlen], hb0, by rw [hbb, hdrop], ?_⟩
          rcases ho with ⟨hs', hk', _⟩ | ⟨hs', hk', _⟩ | ⟨hs', _⟩
          · exact Or.inr (Or.inl ⟨g, mid ++ [c], hsin.snoc c, Or.inr (Or.inr (Or.inl
              ⟨w', d, k ++ [c], by rw [hsol, hw, List.append_assoc], hst, hs', hk'⟩))⟩)
          · exact Or.inr (Or.inl ⟨g, mid ++ [c], hsin.snoc c, Or.inr (Or.inr (Or.inr
              ⟨w', d, k ++ [c], by rw [hsol, hw, List.append_assoc], hst, hs', hk'⟩))⟩)
          · exact Or.inl (Or.inr (Or.inl hs'))
      · rcases kind_cases c with ⟨hc, _⟩ | ⟨hc, _⟩ | ⟨_, hc⟩ | hc | hc
        · subst hc
          obtain ⟨f', h1, s6, z6, l6, d6, t6, n6, q6, _, _, _, _⟩ := newline_step f d k hs hk hb
          refine ⟨f', h1, by rw [z6, hsz], by rw [l6, hlen], hb0, ?_, Or.inr (Or.inr (Or.inr
            ⟨s6, g, mid, [], f, hsin.snoc _, ⟨w', d, k, hw, hst, hk⟩, z6.symm, l6.symm, t6, n6, q6, ?_⟩))⟩
          · rw [← hsz, d6, hsz, hdrop]
          · intro pre hpre
            rw [List.map_nil, List.append_nil] at hpre
            subst hpre
            exact ⟨f', by rw [history_snoc _ _ _ _ hh]; exact h1, s6⟩
        · exact restart hc (by simp [hs])
        · obtain ⟨f', h1, h2, h3, h4⟩ := error_step f c (by rw [hs, hc]; left; rfl) (by rw [hs, hc]; rfl)
          exact ⟨f', h1, err f' h3 h4 h2⟩
        · exact absurd hc hflow
        · obtain ⟨f', h1, h2, h3, h4⟩ := error_step f c (by rw [hs, hc]; left; rfl) (by rw [hs, hc]; rfl)
          exact ⟨f', h1, err f' h3 h4 h2⟩
  · obtain ⟨t, h1⟩ := stuck_step f (by simp [Stuck, hst]) c
    exact ⟨_, h1, hsz, hlen, hb0, hdrop, Or.inr (Or.inr (Or.inl ⟨hst, g, mid, post ++ [c], d, hsin.post c, hrest⟩))⟩
  · obtain ⟨t, h1⟩ := stuck_step f (by simp [Stuck, hst]) c
    exact ⟨_, h1, hsz, hlen, hb0, hdrop, Or.inr (Or.inr (Or.inr ⟨hst, g, mid, post ++ [c], e, hsin.post c,
      hrest.1, hrest.2.1, hrest.2.2.1, hrest.2.2.2.1, hrest.2.2.2.2.1, hrest.2.2.2.2.2.1, by
        intro pre hpre
        rw [List.map_append, ← List.append_assoc] at hpre
        exact hrest.2.2.2.2.2.2 pre (List.append_cancel_right hpre)⟩))⟩

/-- Every history from a fresh receiver is defined and keeps the invariant. -/
theorem TInv.all (buffer : List Byte) (size : Nat) (hb : size ≤ buffer.length) (hist : List Op) :
    ∃ f, history (init buffer size) hist = some f ∧ TInv (init buffer size) hist f := by
  induction hist using List.reverseRecOn with
  | nil => exact ⟨_, rfl, rfl, rfl, hb, rfl, Or.inl (Or.inl rfl)⟩
  | append_singleton hist op ih =>
    obtain ⟨f, hf, hi⟩ := ih
    rw [history_snoc _ _ _ op hf]
    cases op with
    | octet c => exact hi.octet hf c
    | eof => exact ⟨_, rfl, hi.1, hi.2.1, hi.2.2.1, hi.2.2.2.1, Or.inl (by simp)⟩
    | reset => exact ⟨_, rfl, hi.1, hi.2.1, hi.2.2.1, hi.2.2.2.1, Or.inl (Or.inl rfl)⟩

end Diminuto.Framer
