import Verif.DriverProps
import Verif.MmdrivertoolSpec

/-!
# Lemmas about the tool for the memory mapped driver
-/

namespace Diminuto.Mmdrivertool

open Driver (byte)

/-- A bit of a datum. -/
def dbit (le : Bool) (l : List Byte) (n i : Nat) : Bool := (byte l (if le then i / 8 else n - 1 - i / 8)).getLsbD (i % 8)

theorem little_testBit (l : List Byte) (i : Nat) : (little l).testBit i = (byte l (i / 8)).getLsbD (i % 8) := by
  induction l generalizing i with
  | nil => simp [little, byte]
  | cons b l ih =>
    have hb : b.toNat < 2 ^ 8 := b.isLt
    have : little (b :: l) = 2 ^ 8 * little l + b.toNat := rfl
    rw [this, Nat.testBit_two_pow_mul_add _ hb]
    by_cases h : i < 8
    · rw [if_pos h, show i / 8 = 0 by omega, show i % 8 = i by omega]
      rfl
    · rw [if_neg h, ih (i - 8), show i / 8 = (i - 8) / 8 + 1 by omega, show (i - 8) % 8 = i % 8 by omega]
      rfl

theorem byte_take (l : List Byte) (n i : Nat) : byte (l.take n) i = if i < n then byte l i else 0#8 := by
  unfold byte
  rw [List.getElem?_take]
  split <;> rfl

theorem byte_reverse (l : List Byte) (n i : Nat) (hl : l.length = n) : byte l.reverse i = if i < n then byte l (n - 1 - i) else 0#8 := by
  unfold byte
  by_cases h : i < n
  · rw [if_pos h, List.getElem?_reverse (by omega), hl]
  · rw [if_neg h, List.getElem?_eq_none (by simp; omega)]
    rfl

theorem decode_testBit (le : Bool) (n : Nat) (l : List Byte) (hl : n ≤ l.length) (i : Nat) : (decode le n l).testBit i = (decide (i < 8 * n) && dbit le l n i) := by
  unfold decode dbit
  rw [little_testBit]
  cases le with
  | true =>
    simp only [if_true]
    rw [byte_take]
    by_cases h : i < 8 * n
    · rw [if_pos (by omega)]; simp [h]
    · rw [if_neg (by omega)]; simp [h]
  | false =>
    simp only [Bool.false_eq_true, if_false]
    rw [byte_reverse _ n _ (by simp; omega)]
    by_cases h : i < 8 * n
    · rw [if_pos (by omega), byte_take, if_pos (by omega)]; simp [h]
    · rw [if_neg (by omega)]; simp [h]

theorem encode_length (le : Bool) (n : Nat) (v : BitVec 64) : (encode le n v).length = n := by
  unfold encode
  cases le <;> simp

theorem assign_length (le : Bool) (n : Nat) (v : BitVec 64) (l : List Byte) (hn : n ≤ 8) (hl : l.length = 8) : (assign le n v l).length = 8 := by
  unfold assign
  rw [List.length_append, encode_length, List.length_drop]
  omega

theorem byte_range (n : Nat) (v : BitVec 64) (i : Nat) (h : i < n) : byte ((List.range n).map fun i => (v >>> (8 * i)).setWidth 8) i = (v >>> (8 * i)).setWidth 8 := by
  unfold byte
  rw [List.getElem?_map, List.getElem?_range h]
  rfl

theorem byte_encode (le : Bool) (n : Nat) (v : BitVec 64) (i : Nat) (h : i < n) : byte (encode le n v) (if le then i else n - 1 - i) = (v >>> (8 * i)).setWidth 8 := by
  unfold encode
  cases le with
  | true => exact byte_range n v i h
  | false =>
    simp only [Bool.false_eq_true, if_false]
    rw [byte_reverse _ n _ (by simp), if_pos (by omega), byte_range _ _ _ (by omega)]
    rw [show n - 1 - (n - 1 - i) = i by omega]

theorem assign_dbit (le : Bool) (n : Nat) (v : BitVec 64) (l : List Byte) (i : Nat) (h : i < 8 * n) : dbit le (assign le n v l) n i = v.toNat.testBit i := by
  unfold dbit
  have hb : byte (assign le n v l) (if le then i / 8 else n - 1 - i / 8) = byte (encode le n v) (if le then i / 8 else n - 1 - i / 8) := by
    unfold byte assign
    rw [List.getElem?_append_left]
    rw [encode_length]
    split <;> omega
  rw [hb, byte_encode le n v (i / 8) (by omega)]
  rw [BitVec.getLsbD_setWidth, BitVec.getLsbD_ushiftRight, show 8 * (i / 8) + i % 8 = i by omega]
  have : i % 8 < 8 := by omega
  simp [this, BitVec.testBit_toNat]

theorem assign_decode (le : Bool) (n : Nat) (v : BitVec 64) (l : List Byte) (hn : n ≤ 8) (hl : l.length = 8) : decode le n (assign le n v l) = v.toNat % 2 ^ (8 * n) := by
  apply Nat.eq_of_testBit_eq
  intro i
  rw [decode_testBit _ _ _ (by rw [assign_length le n v l hn hl]; omega), Nat.testBit_mod_two_pow]
  by_cases h : i < 8 * n
  · rw [assign_dbit le n v l i h]
  · simp [h]

/-- What is the case between two options. -/
structure Sees (g : Geometry) (le : Bool) (s : State) (v : View) : Prop where
  datum : s.op.datum.length = 8
  bytes : s.op.mask.length = 8
  width : s.op.width.toNat = v.size
  sizes : v.size = 1 ∨ v.size = 2 ∨ v.size = 4 ∨ v.size = 8
  device : s.device = v.device
  opened : s.opened = none ∨ s.opened = some s.device
  place : s.op.offset.toNat = v.place
  mask : s.mask.toNat = v.mask
  last : ∀ r, v.last = some r → decode le v.size s.op.datum = r
  geometry : ∀ name, g name = (s.devices name).map fun d => (d.base, d.length.toNat)
  memory : ∀ name d, s.devices name = some d → d.mem = v.memory name
  out : s.out = v.out

theorem Sees.proper {g : Geometry} {le : Bool} {s : State} {v : View} (h : Sees g le s v) (cmd : BitVec 32) : Driver.Proper ⟨cmd, s.op, true, true⟩ := ⟨h.datum, h.bytes, rfl, rfl⟩

theorem Sees.small {g : Geometry} {le : Bool} {s : State} {v : View} (h : Sees g le s v) : v.size ≤ 8 := by have := h.sizes; omega

/-- The device with the word. -/
theorem Sees.reaches {g : Geometry} {le : Bool} {s : State} {v : View} (h : Sees g le s v) (a : Nat) (hr : Reaches g v a) :
    ∃ d, s.devices s.device = some d ∧ a = d.base + s.op.offset.toNat ∧ s.op.offset ≤ d.length ∧ ∀ cmd, Driver.Fits d ⟨cmd, s.op, true, true⟩ v.size := by
  obtain ⟨base, length, hg, hp, ha, hd⟩ := hr
  rw [h.geometry, ← h.device] at hg
  cases hx : s.devices s.device with
  | none => rw [hx] at hg; cases hg
  | some d =>
    rw [hx] at hg
    obtain ⟨rfl, rfl⟩ := Prod.mk.inj (Option.some.inj hg)
    refine ⟨d, rfl, by rw [ha, h.place], ?_, fun cmd => ⟨h.width, h.sizes, ?_⟩⟩
    · rw [BitVec.le_def, h.place]; exact hp
    · show v.size ∣ d.base + s.op.offset.toNat
      rw [h.place, ← ha]; exact hd

theorem control_open {g : Geometry} {le : Bool} {s : State} {v : View} (h : Sees g le s v) (cmd : BitVec 32) (d : Driver.Dev) (hd : s.devices s.device = some d) :
    control cmd s = match Driver.ioctl d ⟨cmd, s.op, true, true⟩ with
      | (.undefined, _) => .undefined
      | (.done rc copied _, d) =>
        if rc < 0 then .fails { s with opened := some s.device, op := copied.getD s.op, devices := fun x => if x = s.device then some d else s.devices x }
        else .next { s with opened := some s.device, op := copied.getD s.op, devices := fun x => if x = s.device then some d else s.devices x } := by
  have ha : acquire s = some { s with opened := some s.device } := by
    unfold acquire
    rcases h.opened with ho | ho
    · rw [ho]; simp only [hd, Option.isSome_some, if_true]
    · rw [ho]; simp only []; rw [← ho]
  unfold control
  rw [ha]
  simp only [hd]
  rcases Driver.ioctl d ⟨cmd, s.op, true, true⟩ with ⟨r, d'⟩
  cases r <;> rfl

/-- A word that cannot be reached. -/
theorem control_fails {g : Geometry} {le : Bool} {s : State} {v : View} (h : Sees g le s v) (cmd : BitVec 32) (hc : cmd = Driver.READ ∨ cmd = Driver.WRITE ∨ cmd = Driver.SET ∨ cmd = Driver.CLEAR)
    (hr : ∀ a, ¬ Reaches g v a) : ∃ t, control cmd s = .fails t ∧ Shows t v := by
  cases hd : s.devices s.device with
  | none =>
    refine ⟨s, ?_, h.out, h.memory⟩
    unfold control acquire
    rcases h.opened with ho | ho
    · rw [ho]; simp [hd]
    · rw [ho]; simp [ho, hd]
  | some d =>
    have hio : ∃ rc copied accesses d', Driver.ioctl d ⟨cmd, s.op, true, true⟩ = (.done rc copied accesses, d') ∧ rc < 0 ∧ d'.mem = d.mem := by
      by_cases ho : s.op.offset ≤ d.length
      · have hf : ∀ n, ¬ Driver.Fits d ⟨cmd, s.op, true, true⟩ n := by
          intro n hf
          refine hr (d.base + v.place) ⟨d.base, d.length.toNat, ?_, ?_, rfl, ?_⟩
          · rw [h.geometry, ← h.device, hd]; rfl
          · rw [← h.place]; exact ho
          · have h1 := hf.width
            have h2 := hf.aligned
            rw [← h.place, ← h.width, h1]; exact h2
        obtain ⟨copied, d', h1, h2, -⟩ := Driver.driver_refuses d ⟨cmd, s.op, true, true⟩ hc (h.proper cmd) ho hf
        exact ⟨_, _, _, _, h1, by decide, h2⟩
      · have ho' : d.length < s.op.offset := BitVec.not_le.mp ho
        have hw : Driver.iocWrite cmd = true := by rcases hc with rfl | rfl | rfl | rfl <;> decide
        refine ⟨-Driver.EINVAL, none, [], { d with ioctls := d.ioctls + 1, errors := d.errors + 1 }, ?_, by decide, rfl⟩
        unfold Driver.ioctl Driver.first
        simp [hw, ho']
    obtain ⟨rc, copied, accesses, d', h1, h2, h3⟩ := hio
    refine ⟨{ s with opened := some s.device, op := copied.getD s.op, devices := fun x => if x = s.device then some d' else s.devices x }, ?_, ?_⟩
    · rw [control_open h cmd d hd, h1]
      simp only [h2, if_true]
    · refine ⟨h.out, ?_⟩
      intro name e he
      by_cases hn : name = s.device
      · simp only [hn, if_true, Option.some.injEq] at he
        rw [← he, h3, hn]
        exact h.memory _ _ hd
      · simp only [hn, if_false] at he
        exact h.memory _ _ he

/-- The devices are where they were. -/
theorem geometry_same {g : Geometry} {devices : List Byte → Option Driver.Dev} {name : List Byte} {d d' : Driver.Dev} (h : ∀ x, g x = (devices x).map fun d => (d.base, d.length.toNat)) (hd : devices name = some d)
    (hb : d'.base = d.base) (hl : d'.length = d.length) (x : List Byte) : g x = ((fun x => if x = name then some d' else devices x) x).map fun d => (d.base, d.length.toNat) := by
  rw [h x]
  by_cases hx : x = name
  · simp only [hx, if_true, hd, Option.map_some, hb, hl]
  · simp only [hx, if_false]

/-- A word that is read. -/
theorem control_read {g : Geometry} {le : Bool} {s : State} {v : View} (h : Sees g le s v) (a : Nat) (hr : Reaches g v a) :
    ∃ t r, control Driver.READ s = .next t ∧ Sees g le t { v with last := some r } ∧ decode le t.width t.op.datum = r ∧
      ∀ i, r.testBit i = (decide (i < 8 * v.size) && bit le (v.memory v.device) a v.size i) := by
  obtain ⟨d, hd, ha, ho, hf⟩ := h.reaches a hr
  obtain ⟨op, h1, h2, h3, h4, h5, h6⟩ := Driver.driver_read d ⟨Driver.READ, s.op, true, true⟩ v.size rfl (h.proper _) ho (hf _)
  refine ⟨{ s with opened := some s.device, op := op, devices := fun x => if x = s.device then some { d with ioctls := d.ioctls + 1 } else s.devices x }, decode le v.size op.datum, ?_, ?_, ?_, ?_⟩
  · rw [control_open h _ d hd, h1]
    simp
  · refine ⟨h5, ?_, ?_, h.sizes, h.device, Or.inr rfl, ?_, h.mask, fun r e => Option.some.inj e, geometry_same h.geometry hd rfl rfl, ?_, h.out⟩
    · rw [h4]; exact h.bytes
    · rw [h3]; exact h.width
    · rw [h2]; exact h.place
    · intro name e he
      by_cases hn : name = s.device
      · simp only [hn, if_true, Option.some.injEq] at he
        rw [← he, hn]
        exact h.memory _ d hd
      · simp only [hn, if_false] at he
        exact h.memory _ _ he
  · show decode le op.width.toNat op.datum = _
    rw [h3]
    show decode le s.op.width.toNat op.datum = _
    rw [h.width]
  · intro i
    have hs := h.small
    rw [decode_testBit _ _ _ (by omega)]
    by_cases hi : i < 8 * v.size
    · congr 1
      unfold dbit bit
      rw [h6]
      have hlt : (if le = true then i / 8 else v.size - 1 - i / 8) < v.size := by split <;> omega
      rw [if_pos hlt, ← h.device, ← h.memory _ _ hd, ha]
    · simp [hi]

/-- What becomes of a bit. -/
def changed (cmd : BitVec 32) (b datum mask : Bool) : Bool := if cmd = Driver.WRITE then datum else if cmd = Driver.SET then (b && !mask) || datum else b && !datum

/-- A word that is changed. -/
theorem control_change {g : Geometry} {le : Bool} {s : State} {v : View} (h : Sees g le s v) (a : Nat) (hr : Reaches g v a) (cmd : BitVec 32)
    (hc : cmd = Driver.WRITE ∨ cmd = Driver.SET ∨ cmd = Driver.CLEAR) :
    ∃ t memory, control cmd s = .next t ∧ Sees g le t { v with memory := memory } ∧
      Becomes le v a (fun i => changed cmd (bit le (v.memory v.device) a v.size i) (dbit le s.op.datum v.size i) (dbit le s.op.mask v.size i)) memory := by
  obtain ⟨d, hd, ha, ho, hf⟩ := h.reaches a hr
  obtain ⟨mem, accesses, h1, h2⟩ := Driver.driver_change d ⟨cmd, s.op, true, true⟩ v.size hc (h.proper _) ho (hf _)
  have hmem : d.mem = v.memory v.device := by rw [← h.device]; exact h.memory _ _ hd
  refine ⟨{ s with opened := some s.device, devices := fun x => if x = s.device then some { d with mem := mem, ioctls := d.ioctls + 1 } else s.devices x }, fun n => if n = v.device then mem else v.memory n, ?_, ?_, ?_, ?_, ?_⟩
  · rw [control_open h _ d hd, h1]
    simp
  · refine ⟨h.datum, h.bytes, h.width, h.sizes, h.device, Or.inr rfl, h.place, h.mask, h.last, geometry_same h.geometry hd rfl rfl, ?_, h.out⟩
    intro name e he
    by_cases hn : name = s.device
    · simp only [hn, if_true, Option.some.injEq] at he
      simp only [hn, h.device, if_true]
      rw [← he]
    · simp only [hn, if_false] at he
      have : ¬ name = v.device := by rw [← h.device]; exact hn
      simp only [this, if_false]
      exact h.memory _ _ he
  · intro i hi
    have hlt : (if le = true then i / 8 else v.size - 1 - i / 8) < v.size := by split <;> omega
    unfold bit dbit
    simp only [if_true]
    generalize hj : (if le = true then i / 8 else v.size - 1 - i / 8) = j at hlt ⊢
    have hx := h2 (a + j)
    have hat : d.base + s.op.offset.toNat = a := ha.symm
    simp only [Driver.Dev.at, hat] at hx
    rw [if_pos (by omega), show a + j - a = j by omega, hmem] at hx
    rw [hx]
    have h8 : i % 8 < 8 := by omega
    unfold Driver.Change changed
    by_cases c1 : cmd = Driver.WRITE
    · rw [if_pos c1, if_pos c1]
    · rw [if_neg c1, if_neg c1]
      by_cases c2 : cmd = Driver.SET
      · rw [if_pos c2, if_pos c2]
        simp [h8]
      · rw [if_neg c2, if_neg c2]
        simp [h8]
  · intro x hx
    have hxx := h2 x
    have hat : d.base + s.op.offset.toNat = a := ha.symm
    simp only [Driver.Dev.at, hat] at hxx
    simp only [if_true]
    rw [hxx, if_neg hx, hmem]
  · intro n hn
    simp only [hn, if_false]

theorem number_some {t : List Byte} {k : BitVec 64} (h : number t = some k) : Numeral t k.toNat := by
  unfold number at h
  by_cases hc : (Number.unsigned t).2.1 = []
  · rw [if_neg (by simp [hc])] at h
    refine ⟨hc, ?_⟩
    rw [← Option.some.inj h, BitVec.toNat_ofNat]
  · rw [if_pos hc] at h; cases h

theorem number_none {t : List Byte} (h : number t = none) (k : Nat) : ¬ Numeral t k := by
  unfold number at h
  intro hk
  rw [if_neg (by simp [hk.1])] at h
  cases h

theorem shifted_some {b : Bool} {t : List Byte} {k r : BitVec 64} (h : number t = some k) (hs : shifted b k = some r) : Operand b t r.toNat := by
  refine ⟨k.toNat, number_some h, ?_⟩
  unfold shifted at hs
  cases b with
  | false => simp only [Bool.false_eq_true, if_false] at hs ⊢; rw [Option.some.inj hs]
  | true =>
    simp only [if_true] at hs ⊢
    by_cases hk : k.toNat < 64
    · rw [if_pos hk] at hs
      refine ⟨hk, ?_⟩
      rw [← Option.some.inj hs, BitVec.toNat_shiftLeft, Nat.shiftLeft_eq]
      have : 2 ^ k.toNat < 2 ^ 64 := Nat.pow_lt_pow_right (by omega) hk
      simp
      omega
    · rw [if_neg hk] at hs; cases hs

theorem shifted_none {b : Bool} {k : BitVec 64} (hs : shifted b k = none) : b = true ∧ 64 ≤ k.toNat := by
  unfold shifted at hs
  cases b with
  | false => simp at hs
  | true =>
    simp only [if_true] at hs
    by_cases hk : k.toNat < 64
    · rw [if_pos hk] at hs; cases hs
    · exact ⟨rfl, by omega⟩

theorem Sees.assigned {g : Geometry} {le : Bool} {s : State} {v : View} (h : Sees g le s v) (k : BitVec 64) (m : List Byte) (hm : m.length = 8) :
    Sees g le { s with op := { s.op with datum := assign le s.width k s.op.datum, mask := m } } { v with last := some (k.toNat % 2 ^ (8 * v.size)) } := by
  have hw : s.width = v.size := h.width
  refine ⟨?_, hm, h.width, h.sizes, h.device, h.opened, h.place, h.mask, ?_, h.geometry, h.memory, h.out⟩
  · rw [hw]; exact assign_length _ _ _ _ h.small h.datum
  · intro r hr
    rw [← Option.some.inj hr, hw]
    exact assign_decode _ _ _ _ h.small h.datum

theorem Becomes.congr {le : Bool} {v : View} {a : Nat} {f f' : Nat → Bool} {memory : Memory} (h : Becomes le v a f memory) (hf : ∀ i, i < 8 * v.size → f i = f' i) : Becomes le v a f' memory :=
  ⟨fun i hi => by rw [h.1 i hi, hf i hi], h.2.1, h.2.2⟩

/-- An outcome is what is to become of an option. -/
def Right (g : Geometry) (le : Bool) (s : State) (v : View) (o : Opt) : Outcome → Prop
  | .next t => ∃ v', Does g le v o v' ∧ Sees g le t v'
  | .stops t => t = s ∧ ∃ nonzero, o = .test nonzero ∧ ∀ r, v.last = some r → ¬ (r ≠ 0 ↔ nonzero = true)
  | .fails t => Fails g v o ∧ Shows t v
  | .undefined => ∃ t k, (o = .clear true t ∨ o = .set true t) ∧ Numeral t k ∧ 64 ≤ k

theorem Right.unread {g : Geometry} {le : Bool} {s : State} {v : View} (h : Sees g le s v) {o : Opt} {t : List Byte} (ho : argument o = some t) (hn : number t = none) : Right g le s v o (.fails s) :=
  ⟨Or.inl ⟨t, ho, number_none hn⟩, h.out, h.memory⟩

/-- The operations that change something: the datum and the mask are there, and what becomes of it is known. -/
theorem change_right {g : Geometry} {le : Bool} {s : State} {v : View} (h : Sees g le s v) (k : BitVec 64) (m : List Byte) (hm : m.length = 8) (cmd : BitVec 32)
    (hc : cmd = Driver.WRITE ∨ cmd = Driver.SET ∨ cmd = Driver.CLEAR) (o : Opt) (ho : Operation o)
    (hd : ∀ a memory, Reaches g v a → Becomes le v a (fun i => changed cmd (bit le (v.memory v.device) a v.size i) (k.toNat.testBit i) (dbit le m v.size i)) memory →
      Does g le v o { v with last := some (k.toNat % 2 ^ (8 * v.size)), memory := memory }) :
    Right g le s v o (control cmd { s with op := { s.op with datum := assign le s.width k s.op.datum, mask := m } }) := by
  have hs := h.assigned k m hm
  have hw : s.width = v.size := h.width
  by_cases hr : ∃ a, Reaches g v a
  · obtain ⟨a, ha⟩ := hr
    obtain ⟨t, memory, h1, h2, h3⟩ := control_change hs a ha cmd hc
    rw [h1]
    refine ⟨_, hd a memory ha ?_, h2⟩
    refine Becomes.congr (v := v) h3 ?_
    intro i hi
    show changed cmd _ (dbit le (assign le s.width k s.op.datum) v.size i) _ = _
    rw [hw, assign_dbit le v.size k s.op.datum i hi]
  · obtain ⟨t, h1, h2⟩ := control_fails hs cmd (Or.inr hc) (fun a ha => hr ⟨a, ha⟩)
    rw [h1]
    exact ⟨Or.inr ⟨ho, fun a ha => hr ⟨a, ha⟩⟩, h2⟩

theorem option_right {g : Geometry} {le : Bool} {s : State} {v : View} (h : Sees g le s v) (o : Opt) : Right g le s v o (option le s o) := by
  have hw : s.width = v.size := h.width
  cases o with
  | «at» size t =>
    simp only [option]
    cases hn : number t with
    | none => exact Right.unread h rfl hn
    | some k =>
      refine ⟨_, .at (number_some hn), h.datum, h.bytes, ?_, ?_, h.device, h.opened, rfl, h.mask, ?_, h.geometry, h.memory, h.out⟩
      · cases size <;> rfl
      · cases size <;> simp [Size.bytes]
      · intro r hr
        by_cases hz : size.bytes = v.size
        · simp only [hz, if_true] at hr ⊢
          exact h.last r hr
        · simp only [hz, if_false] at hr
          cases hr
  | device t => exact ⟨_, .device t, h.datum, h.bytes, h.width, h.sizes, rfl, Or.inl rfl, h.place, h.mask, h.last, h.geometry, h.memory, h.out⟩
  | clear b t =>
    simp only [option]
    cases hn : number t with
    | none => exact Right.unread h rfl hn
    | some k =>
      simp only []
      cases hs : shifted b k with
      | none =>
        obtain ⟨rfl, hk⟩ := shifted_none hs
        exact ⟨t, k.toNat, Or.inl rfl, number_some hn, hk⟩
      | some r =>
        refine change_right h r s.op.mask h.bytes Driver.CLEAR (Or.inr (Or.inr rfl)) (.clear b t) trivial ?_
        intro a memory ha hb
        exact .clear ha (shifted_some hn hs) rfl (hb.congr fun i _ => rfl)
  | set b t =>
    simp only [option]
    cases hn : number t with
    | none => exact Right.unread h rfl hn
    | some k =>
      simp only []
      cases hs : shifted b k with
      | none =>
        obtain ⟨rfl, hk⟩ := shifted_none hs
        exact ⟨t, k.toNat, Or.inr rfl, number_some hn, hk⟩
      | some r =>
        refine change_right h r (assign le s.width s.mask s.op.mask) ?_ Driver.SET (Or.inr (Or.inl rfl)) (.set b t) trivial ?_
        · rw [hw]; exact assign_length _ _ _ _ h.small h.bytes
        · intro a memory ha hb
          refine .set ha (shifted_some hn hs) rfl (hb.congr fun i hi => ?_)
          rw [hw, assign_dbit le v.size s.mask s.op.mask i hi, h.mask]
          rfl
  | write t =>
    simp only [option]
    cases hn : number t with
    | none => exact Right.unread h rfl hn
    | some k =>
      refine change_right h k s.op.mask h.bytes Driver.WRITE (Or.inl rfl) (.write t) trivial ?_
      intro a memory ha hb
      exact .write ha (number_some hn) rfl (hb.congr fun i _ => rfl)
  | read =>
    simp only [option]
    by_cases hr : ∃ a, Reaches g v a
    · obtain ⟨a, ha⟩ := hr
      obtain ⟨t, r, h1, h2, h3, h4⟩ := control_read h a ha
      rw [h1]
      refine ⟨_, .read ha h4, h2.datum, h2.bytes, h2.width, h2.sizes, h2.device, h2.opened, h2.place, h2.mask, h2.last, h2.geometry, h2.memory, ?_⟩
      show t.out ++ [decode le t.width t.op.datum] = v.out ++ [r]
      rw [h3, h2.out]
    · obtain ⟨t, h1, h2⟩ := control_fails h Driver.READ (Or.inl rfl) (fun a ha => hr ⟨a, ha⟩)
      rw [h1]
      exact ⟨Or.inr ⟨trivial, fun a ha => hr ⟨a, ha⟩⟩, h2⟩
  | mask t =>
    simp only [option]
    cases hn : number t with
    | none => exact Right.unread h rfl hn
    | some k => exact ⟨_, .mask (number_some hn), h.datum, h.bytes, h.width, h.sizes, h.device, h.opened, h.place, rfl, h.last, h.geometry, h.memory, h.out⟩
  | delay t =>
    simp only [option]
    cases hn : number t with
    | none => exact Right.unread h rfl hn
    | some k => exact ⟨_, .delay (number_some hn), h⟩
  | test nonzero =>
    simp only [option]
    by_cases hc : (decode le s.width s.op.datum ≠ 0) = (nonzero = true)
    · rw [if_pos hc]
      refine ⟨_, .test ?_, h⟩
      intro r hr
      rw [← h.last r hr, ← hw, hc]
    · rw [if_neg hc]
      refine ⟨rfl, nonzero, rfl, ?_⟩
      intro r hr hx
      rw [← h.last r hr, ← hw] at hx
      exact hc (propext hx)
  | other => exact ⟨_, .other, h⟩

end Diminuto.Mmdrivertool
