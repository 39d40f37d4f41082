import Verif.DriverLemmas
import Verif.SectionProps

/-!
# Properties of the memory mapped driver
-/

namespace Diminuto.Driver

/-- The address of a word. -/
abbrev Dev.at (d : Dev) (a : Arg) : Nat := d.base + a.op.offset.toNat

/-- C122.  Read: the word is copied to the application, nothing else of the structure is changed, and memory is not. -/
theorem driver_read (d : Dev) (a : Arg) (n : Nat) (hc : a.cmd = READ) (ha : Proper a) (ho : a.op.offset ≤ d.length) (hf : Fits d a n) :
    ∃ op, ioctl d a = (.done 0 (some op) [⟨d.at a, n, false⟩], { d with ioctls := d.ioctls + 1 }) ∧ op.offset = a.op.offset ∧ op.width = a.op.width ∧ op.mask = a.op.mask ∧ op.datum.length = 8 ∧
      ∀ i, byte op.datum i = if i < n then d.mem (d.at a + i) else byte a.op.datum i := by
  refine ⟨{ a.op with datum := word d.mem (d.at a) n ++ a.op.datum.drop n }, ?_, rfl, rfl, rfl, ?_, ?_⟩
  · have h1 : ¬ (iocWrite a.cmd = true ∧ a.readable = false) := by rw [ha.readable]; simp
    have h2 : ¬ iocWrite a.cmd = false := by rw [hc]; decide
    have h3 : ¬ d.length < a.op.offset := BitVec.not_lt.mpr ho
    have h4 : iocRead a.cmd = true := by rw [hc]; decide
    unfold ioctl first
    simp only []
    rw [if_neg h1, if_neg h2, if_neg h3, if_pos hc]
    rw [get_word hf.width hf.sizes, get_aligned _ hf.sizes hf.aligned]
    simp only [finish, h4, ha.writable, if_true]
  · have := ha.datum
    have hs := hf.sizes
    simp [word_length]
    omega
  · intro i
    by_cases hi : i < n
    · rw [if_pos hi, word_byte _ _ _ _ _ hi]
    · rw [if_neg hi]
      unfold byte
      rw [List.getElem?_append_right (by rw [word_length]; omega), word_length, List.getElem?_drop, show n + (i - n) = i by omega]

/-- C122.  If the word cannot be copied to the application, or the structure cannot be copied from it, that is reported, and nothing of it is copied. -/
theorem driver_fault (d : Dev) (a : Arg) (hc : a.cmd = READ) (ho : a.op.offset ≤ d.length) (hw : a.readable = false ∨ a.writable = false) :
    ∃ accesses d', ioctl d a = (.done (-14) none accesses, d') ∧ d'.mem = d.mem ∧ d'.errors = d.errors + 1 := by
  have h2 : ¬ iocWrite a.cmd = false := by rw [hc]; decide
  have h3 : ¬ d.length < a.op.offset := BitVec.not_lt.mpr ho
  have h4 : iocRead a.cmd = true := by rw [hc]; decide
  have h5 : iocWrite a.cmd = true := by rw [hc]; decide
  unfold ioctl first
  simp only []
  by_cases h1 : iocWrite a.cmd = true ∧ a.readable = false
  · rw [if_pos h1]
    exact ⟨[], _, rfl, rfl, rfl⟩
  · rw [if_neg h1, if_neg h2, if_neg h3, if_pos hc]
    have hwr : a.writable = false := by
      rcases hw with h | h
      · exact absurd ⟨h5, h⟩ h1
      · exact h
    rcases get d.mem (d.base + a.op.offset.toNat) a.op.width a.op.datum with ⟨rc, datum, accesses⟩
    simp only [finish, h4, hwr, if_true, Bool.false_eq_true, if_false]
    exact ⟨accesses, _, rfl, rfl, rfl⟩

example : READ = (⟨READ, ⟨0#64, 4#32, List.replicate 8 0#8, List.replicate 8 0#8⟩, true, false⟩ : Arg).cmd ∧ (⟨READ, ⟨0#64, 4#32, List.replicate 8 0#8, List.replicate 8 0#8⟩, true, false⟩ : Arg).writable = false := ⟨rfl, rfl⟩

/-- What the commands that change memory do to a byte: its number, the datum, the mask, and its value. -/
def Change (cmd : BitVec 32) (datum mask : List Byte) (i : Nat) (b : Byte) : Byte :=
  if cmd = WRITE then byte datum i else if cmd = SET then b &&& ~~~ byte mask i ||| byte datum i else b &&& ~~~ byte datum i

theorem finish_write (d : Dev) (a : Arg) (hc : a.cmd = WRITE ∨ a.cmd = SET ∨ a.cmd = CLEAR) (op : Op) (rc : Int) (accesses : List Access) : finish d a op rc accesses = (.done rc none accesses, d) := by
  have : iocRead a.cmd = false := by rcases hc with h | h | h <;> rw [h] <;> decide
  simp [finish, this]

theorem ioctl_write (d : Dev) (a : Arg) (hc : a.cmd = WRITE) (hr : a.readable = true) (ho : a.op.offset ≤ d.length) :
    ioctl d a = (.done (put d.mem (d.at a) a.op.width a.op.datum).1 none (put d.mem (d.at a) a.op.width a.op.datum).2.2,
      { d with ioctls := d.ioctls + 1, mem := (put d.mem (d.at a) a.op.width a.op.datum).2.1 }) := by
  have h1 : ¬ (iocWrite a.cmd = true ∧ a.readable = false) := by rw [hr]; simp
  have h2 : ¬ iocWrite a.cmd = false := by rw [hc]; decide
  have h3 : ¬ d.length < a.op.offset := BitVec.not_lt.mpr ho
  have h5 : ¬ a.cmd = READ := by rw [hc]; decide
  unfold ioctl first
  simp only []
  rw [if_neg h1, if_neg h2, if_neg h3, if_neg h5, if_pos hc]
  simp only [finish_write _ a (Or.inl hc)]

theorem ioctl_modify (d : Dev) (a : Arg) (hc : a.cmd = SET ∨ a.cmd = CLEAR) (hr : a.readable = true) (ho : a.op.offset ≤ d.length) :
    ioctl d a = (match get d.mem (d.at a) a.op.width a.op.datum with
      | (rc, datum, accesses) => if rc ≠ 0 then (.done rc none accesses, { d with ioctls := d.ioctls + 1 }) else second { d with ioctls := d.ioctls + 1 } a { a.op with datum := datum } accesses) := by
  have h1 : ¬ (iocWrite a.cmd = true ∧ a.readable = false) := by rw [hr]; simp
  have h2 : ¬ iocWrite a.cmd = false := by rcases hc with h | h <;> rw [h] <;> decide
  have h3 : ¬ d.length < a.op.offset := BitVec.not_lt.mpr ho
  have h5 : ¬ a.cmd = READ := by rcases hc with h | h <;> rw [h] <;> decide
  have h6 : ¬ a.cmd = WRITE := by rcases hc with h | h <;> rw [h] <;> decide
  unfold ioctl first
  simp only []
  rw [if_neg h1, if_neg h2, if_neg h3, if_neg h5, if_neg h6, if_pos hc]
  rcases get d.mem (d.at a) a.op.width a.op.datum with ⟨rc, datum, accesses⟩
  simp only []
  by_cases h : rc ≠ 0
  · rw [if_pos h, if_pos h, finish_write _ a (Or.inr hc)]
  · rw [if_neg h, if_neg h]

/-- C122.  Write stores the datum, set clears the bits of the mask and sets those of the datum, and clear clears those of the datum; only the bytes of the word are changed, no others, and the application sees success. -/
theorem driver_change (d : Dev) (a : Arg) (n : Nat) (hc : a.cmd = WRITE ∨ a.cmd = SET ∨ a.cmd = CLEAR) (ha : Proper a) (ho : a.op.offset ≤ d.length) (hf : Fits d a n) :
    ∃ mem accesses, ioctl d a = (.done 0 none accesses, { d with mem := mem, ioctls := d.ioctls + 1 }) ∧ Changes d.mem mem (d.at a) n (Change a.cmd a.op.datum a.op.mask) := by
  have hlen : n ≤ 8 := by have := hf.sizes; omega
  have hd := ha.datum
  have hm := ha.mask
  rcases hc with hc | hc
  · refine ⟨store d.mem (d.at a) (a.op.datum.take n), [⟨d.at a, n, true⟩], ?_, ?_⟩
    · rw [ioctl_write d a hc ha.readable ho, put_word hf.width hf.sizes, put_aligned _ hf.sizes hf.aligned]
    · apply store_changes _ _ _ _ (by omega)
      intro i hi
      simp only [Change, hc, if_true]
  · have hw : ¬ a.cmd = WRITE := by rcases hc with h | h <;> rw [h] <;> decide
    let op : Op := { a.op with datum := word d.mem (d.at a) n ++ a.op.datum.drop n }
    have hopd : op.datum.length = 8 := by simp [op, word_length]; omega
    refine ⟨store d.mem (d.at a) ((if a.cmd = SET then setWord n op a.op.datum else clearWord n op a.op.datum).take n), [⟨d.at a, n, false⟩, ⟨d.at a, n, true⟩], ?_, ?_⟩
    · rw [ioctl_modify d a hc ha.readable ho, get_word hf.width hf.sizes, get_aligned _ hf.sizes hf.aligned]
      simp only [ne_eq, not_true_eq_false, if_false]
      unfold second
      rw [modify_word (op := op) hf.width hf.sizes]
      simp only []
      rw [put_word hf.width hf.sizes]
      have hal : n ∣ d.base + op.offset.toNat := hf.aligned
      rw [put_aligned _ hf.sizes hal]
      simp only [finish_write _ a (Or.inr hc)]
      rfl
    · rcases hc with hc | hc
      · rw [if_pos hc]
        apply store_changes
        · unfold setWord
          rw [combine_length _ _ _ _ (by omega) (by rw [combine_length _ _ _ _ (by omega) (by show n ≤ a.op.mask.length; omega)]; omega)]
          omega
        · intro i hi
          unfold setWord
          rw [combine_byte _ _ _ _ (by omega) (by rw [combine_length _ _ _ _ (by omega) (by show n ≤ a.op.mask.length; omega)]; omega) _ hi,
            combine_byte _ _ _ _ (by omega) (by show n ≤ a.op.mask.length; omega) _ hi]
          simp only [op, word_byte _ _ _ _ _ hi, Change, if_neg hw, if_pos hc]
          exact BitVec.or_comm _ _
      · have hns : ¬ a.cmd = SET := by rw [hc]; decide
        rw [if_neg hns]
        apply store_changes
        · unfold clearWord
          rw [combine_length _ _ _ _ (by omega) (by omega)]
          omega
        · intro i hi
          unfold clearWord
          rw [combine_byte _ _ _ _ (by omega) (by omega) _ hi]
          simp only [op, word_byte _ _ _ _ _ hi, Change, if_neg hw, if_neg hns]

/-- A driver with two words, of which the second is set and then cleared in part. -/
def small : Dev := ⟨4096, 8#64, fun x => if x = 4100 then 0xf0#8 else 0#8, 0, 0⟩

def setting : Arg := ⟨SET, ⟨4#64, 4#32, [0x0f#8, 1#8, 0#8, 0#8, 9#8, 9#8, 9#8, 9#8], [0x80#8, 0#8, 0#8, 0#8, 0#8, 0#8, 0#8, 0#8]⟩, true, true⟩

example : Proper setting ∧ setting.op.offset ≤ small.length ∧ Fits small setting 4 ∧ (ioctl small setting).1 = .done 0 none [⟨4100, 4, false⟩, ⟨4100, 4, true⟩] ∧
    (ioctl small setting).2.mem 4100 = 0x7f#8 ∧ (ioctl small setting).2.mem 4101 = 1#8 :=
  ⟨⟨rfl, rfl, rfl, rfl⟩, by decide, ⟨rfl, by decide, by decide⟩, by decide, by decide, by decide⟩

/-- C122.  Without a mask, set is an inclusive or, as is documented. -/
theorem driver_set_or (datum : List Byte) (i : Nat) (b : Byte) : Change SET datum (List.replicate 8 0#8) i b = b ||| byte datum i := by
  have : byte (List.replicate 8 0#8) i = 0#8 := by
    unfold byte
    by_cases h : i < 8
    · rw [List.getElem?_replicate_of_lt h]; rfl
    · rw [List.getElem?_eq_none (by simp; omega)]; rfl
  have h1 : ¬ SET = WRITE := by decide
  unfold Change
  rw [if_neg h1, if_pos rfl, this]
  have : ~~~ 0#8 = BitVec.allOnes 8 := rfl
  rw [this, BitVec.and_allOnes]

/-- C122.  An I/O control that fails changes no register, for any argument; so does one whose result is not defined. -/
theorem driver_failure (d : Dev) (a : Arg) : (ioctl d a).1 = .undefined ∨ (∃ rc copied accesses, (ioctl d a).1 = .done rc copied accesses ∧ (rc ≠ 0 → (ioctl d a).2.mem = d.mem)) := by
  have hput : ∀ (mem : Nat → Byte) address w l, (put mem address w l).1 ≠ 0 → (put mem address w l).2.1 = mem := by
    intro mem address w l
    by_cases h : w.toNat ≠ 1 ∧ w.toNat ≠ 2 ∧ w.toNat ≠ 4 ∧ w.toNat ≠ 8
    · rw [put_bad h]; intro _; rfl
    · have hn : w.toNat = 1 ∨ w.toNat = 2 ∨ w.toNat = 4 ∨ w.toNat = 8 := by omega
      rw [put_word rfl hn]
      by_cases hd : w.toNat ∣ address
      · rw [put_aligned _ hn hd]; intro h; exact absurd rfl h
      · rw [put_unaligned _ hn hd]; intro _; rfl
  have hfin : ∀ (d : Dev) op rc accesses, (finish d a op rc accesses).2.mem = d.mem := by
    intro d op rc accesses
    unfold finish
    split
    · split <;> rfl
    · rfl
  have hfin2 : ∀ (d : Dev) op rc accesses, ∃ rc' copied accesses', (finish d a op rc accesses).1 = .done rc' copied accesses' := by
    intro d op rc accesses
    unfold finish
    split
    · split <;> exact ⟨_, _, _, rfl⟩
    · exact ⟨_, _, _, rfl⟩
  by_cases h1 : iocWrite a.cmd = true ∧ a.readable = false
  · right
    unfold ioctl first
    simp only []
    rw [if_pos h1]
    exact ⟨_, _, _, rfl, fun _ => rfl⟩
  by_cases h2 : iocWrite a.cmd = false
  · left
    unfold ioctl first
    simp only []
    rw [if_neg h1, if_pos h2]
  have hr : a.readable = true := by
    cases hr : a.readable with
    | true => rfl
    | false =>
      cases hw : iocWrite a.cmd with
      | true => exact absurd ⟨hw, hr⟩ h1
      | false => exact absurd hw h2
  right
  by_cases h3 : d.length < a.op.offset
  · unfold ioctl first
    simp only []
    rw [if_neg h1, if_neg h2, if_pos h3]
    exact ⟨_, _, _, rfl, fun _ => rfl⟩
  have ho : a.op.offset ≤ d.length := BitVec.not_lt.mp h3
  by_cases h4 : a.cmd = READ
  · unfold ioctl first
    simp only []
    rw [if_neg h1, if_neg h2, if_neg h3, if_pos h4]
    rcases get d.mem (d.base + a.op.offset.toNat) a.op.width a.op.datum with ⟨rc, datum, accesses⟩
    simp only []
    obtain ⟨rc', c', ac', hx⟩ := hfin2 { d with ioctls := d.ioctls + 1 } { a.op with datum := datum } rc accesses
    exact ⟨rc', c', ac', hx, fun _ => hfin _ _ _ _⟩
  by_cases h5 : a.cmd = WRITE
  · rw [ioctl_write d a h5 hr ho]
    exact ⟨_, _, _, rfl, fun h => hput _ _ _ _ h⟩
  by_cases h6 : a.cmd = SET ∨ a.cmd = CLEAR
  · rw [ioctl_modify d a h6 hr ho]
    rcases get d.mem (d.at a) a.op.width a.op.datum with ⟨rc, datum, accesses⟩
    simp only []
    by_cases h0 : rc ≠ 0
    · rw [if_pos h0]
      exact ⟨_, _, _, rfl, fun _ => rfl⟩
    · rw [if_neg h0]
      unfold second
      cases modify a.cmd { a.op with datum := datum } a.op.datum with
      | none =>
        simp only [finish_write _ a (Or.inr h6)]
        exact ⟨_, _, _, rfl, fun _ => trivial⟩
      | some tmp =>
        simp only [finish_write _ a (Or.inr h6)]
        exact ⟨_, _, _, rfl, fun h => hput _ _ _ _ h⟩
  · unfold ioctl first
    simp only []
    rw [if_neg h1, if_neg h2, if_neg h3, if_neg h4, if_neg h5, if_neg h6]
    exact ⟨_, _, _, rfl, fun _ => rfl⟩

/-- C122.  A width that is none of 1, 2, 4 and 8, and an address that is not a multiple of the width, are refused, and no register is read or written. -/
theorem driver_refuses (d : Dev) (a : Arg) (hc : a.cmd = READ ∨ a.cmd = WRITE ∨ a.cmd = SET ∨ a.cmd = CLEAR) (ha : Proper a) (ho : a.op.offset ≤ d.length) (hf : ∀ n, ¬ Fits d a n) :
    ∃ copied d', ioctl d a = (.done (-22) copied [], d') ∧ d'.mem = d.mem ∧ d'.errors = d.errors := by
  have hget : get d.mem (d.at a) a.op.width a.op.datum = (-EINVAL, a.op.datum, []) := by
    by_cases h : a.op.width.toNat ≠ 1 ∧ a.op.width.toNat ≠ 2 ∧ a.op.width.toNat ≠ 4 ∧ a.op.width.toNat ≠ 8
    · exact get_bad h _ _ _
    · have hn : a.op.width.toNat = 1 ∨ a.op.width.toNat = 2 ∨ a.op.width.toNat = 4 ∨ a.op.width.toNat = 8 := by omega
      rw [get_word rfl hn]
      exact get_unaligned _ hn (fun hd => hf _ ⟨rfl, hn, hd⟩) _
  have hput : put d.mem (d.at a) a.op.width a.op.datum = (-EINVAL, d.mem, []) := by
    by_cases h : a.op.width.toNat ≠ 1 ∧ a.op.width.toNat ≠ 2 ∧ a.op.width.toNat ≠ 4 ∧ a.op.width.toNat ≠ 8
    · exact put_bad h _ _ _
    · have hn : a.op.width.toNat = 1 ∨ a.op.width.toNat = 2 ∨ a.op.width.toNat = 4 ∨ a.op.width.toNat = 8 := by omega
      rw [put_word rfl hn]
      exact put_unaligned _ hn (fun hd => hf _ ⟨rfl, hn, hd⟩) _
  rcases hc with hc | hc | hc
  · have h1 : ¬ (iocWrite a.cmd = true ∧ a.readable = false) := by rw [ha.readable]; simp
    have h2 : ¬ iocWrite a.cmd = false := by rw [hc]; decide
    have h3 : ¬ d.length < a.op.offset := BitVec.not_lt.mpr ho
    have h4 : iocRead a.cmd = true := by rw [hc]; decide
    unfold ioctl first
    simp only []
    rw [if_neg h1, if_neg h2, if_neg h3, if_pos hc, hget]
    simp only [finish, h4, ha.writable, if_true]
    exact ⟨_, _, rfl, rfl, rfl⟩
  · rw [ioctl_write d a hc ha.readable ho, hput]
    exact ⟨_, _, rfl, rfl, rfl⟩
  · rw [ioctl_modify d a hc ha.readable ho, hget]
    exact ⟨_, _, rfl, rfl, rfl⟩

example : ∀ n, ¬ Fits small { setting with op := { setting.op with offset := 2#64 } } n := by
  intro n h
  have h1 : n = 4 := h.width.symm
  have h2 := h.aligned
  subst h1
  exact absurd h2 (by decide)

theorem body_part (a : Arg) (s p : Dev) (l : Arg × Option (Op × List Access)) (hp : Section.Part body a s l p) : (l = (a, none) ∧ p = s) ∨ (∃ x, l = (a, some x) ∧ first s a = (.inr x, p)) := by
  induction hp with
  | nil => exact Or.inl ⟨rfl, rfl⟩
  | @more l l' p q _ hs ih =>
    rcases ih with ⟨rfl, rfl⟩ | ⟨x, rfl, hx⟩
    · right
      simp only [body] at hs
      rcases hf : first p a with ⟨y, e⟩
      rw [hf] at hs
      cases y with
      | inl r => simp at hs
      | inr x =>
        simp only [Prod.mk.injEq, Sum.inl.injEq] at hs
        obtain ⟨rfl, rfl⟩ := hs
        exact ⟨x, rfl, rfl⟩
    · simp [body] at hs

theorem first_same (d e : Dev) (a : Arg) (x : Op × List Access) (h : first d a = (.inr x, e)) : e = { d with ioctls := d.ioctls + 1 } := by
  unfold first at h
  simp only [] at h
  split at h
  · simp at h
  split at h
  · simp at h
  split at h
  · simp at h
  split at h
  · simp at h
  split at h
  · simp at h
  split at h
  · split at h
    · simp at h
    · simp only [Prod.mk.injEq] at h
      exact h.2.symm
  · simp at h

theorem body_whole (a : Arg) (s s' : Dev) (r : Result) (h : Section.Whole body a s r s') : (r, s') = ioctl s a := by
  obtain ⟨l, p, hp, hs⟩ := h
  rcases body_part a s p l hp with ⟨rfl, rfl⟩ | ⟨x, rfl, hx⟩
  · simp only [body] at hs
    unfold ioctl
    rcases hf : first p a with ⟨y, e⟩
    rw [hf] at hs
    cases y with
    | inl r' =>
      simp only [Prod.mk.injEq, Sum.inr.injEq] at hs
      obtain ⟨rfl, rfl⟩ := hs
      rfl
    | inr x => simp at hs
  · obtain ⟨op, accesses⟩ := x
    unfold ioctl
    rw [hx]
    simp only [body] at hs
    simp only [Prod.mk.injEq, Sum.inr.injEq] at hs
    rw [← hs.1, ← hs.2]

/-- The I/O controls one after the other, without any others at the same time; the history says which have been executed, and with what result.  One that was cut short has changed no register. -/
inductive Sequence (d : Dev) : List (Nat × Bool × Arg × Section.Event Result) → Dev → Prop where
  | nil : Sequence d [] d
  | done {h : List (Nat × Bool × Arg × Section.Event Result)} {e : Dev} (t : Nat) (b : Bool) (a : Arg) : Sequence d h e → Sequence d (h ++ [(t, b, a, .done (ioctl e a).1)]) (ioctl e a).2
  | cut {h : List (Nat × Bool × Arg × Section.Event Result)} {e : Dev} (t : Nat) (b : Bool) (a : Arg) (n : Nat) : Sequence d h e → Sequence d (h ++ [(t, b, a, .cut)]) { e with ioctls := n }
  | skipped {h : List (Nat × Bool × Arg × Section.Event Result)} {e : Dev} (t : Nat) (a : Arg) : Sequence d h e → Sequence d (h ++ [(t, true, a, .skipped)]) e

/-- C122.  The operations are atomic, as is documented: whatever processes use the driver, in whatever way they are interleaved and interrupted while they wait, the registers in the end, and all that the processes have been told, are as if the I/O controls had been executed one after the other, those of
each process in their order; one that was interrupted has done nothing. -/
theorem driver_atomic (todo : Nat → List (Bool × Arg)) (d : Dev) (x : Section.Sys Dev Arg (Arg × Option (Op × List Access)) Result) (hx : Section.Steps body (Section.start todo d) x)
    (hf : ∀ t, (x.threads t).running = none) :
    ∃ h, Sequence d h x.world ∧ (∀ t, (x.threads t).results = Section.told t h) ∧ (∀ t, Section.asked t h ++ (x.threads t).todo = todo t) := by
  obtain ⟨h, hs, ht, ha⟩ := Section.section_serial body todo d x hx hf
  refine ⟨h, ?_, ht, ha⟩
  clear ht ha hf hx
  generalize x.world = w at hs
  induction hs with
  | nil => exact .nil
  | @done h p q r t b a _ hw ih =>
    have := body_whole a p q r hw
    have h1 : r = (ioctl p a).1 := congrArg Prod.fst this
    have h2 : q = (ioctl p a).2 := congrArg Prod.snd this
    rw [h1, h2]
    exact .done t b a ih
  | @cut h p q l t b a _ hw ih =>
    rcases body_part a p q l hw with ⟨_, rfl⟩ | ⟨x, _, hx⟩
    · exact .cut t b a q.ioctls ih
    · rw [first_same p q a x hx]
      exact .cut t b a _ ih
  | @skipped h p t a _ ih => exact .skipped t a ih

/-- Two processes set one bit each, the second while the first has the semaphore and is in the middle; both bits are set in the end. -/
def bit (i : Nat) : Arg := ⟨SET, ⟨0#64, 1#32, BitVec.ofNat 8 (2 ^ i) :: List.replicate 7 0#8, List.replicate 8 0#8⟩, true, true⟩

example : ∃ x, Section.Steps body (Section.start (fun t => if t = 0 then [(true, bit 0)] else if t = 1 then [(true, bit 1)] else []) small) x ∧ (∀ t, (x.threads t).running = none) ∧ x.world.mem 4096 = 3#8 := by
  refine ⟨_, .step (.step (.step (.step (.step (.step (.step (.step .here (.lock 0 true (bit 0) [] [] rfl rfl)) (.body 0 true (bit 0) _ [] [] rfl)) (.body 0 true (bit 0) _ [] [] rfl)) (.unlock 0 true (bit 0) _ [] [] rfl))
    (.lock 1 true (bit 1) [] [] rfl rfl)) (.body 1 true (bit 1) _ [] [] rfl)) (.body 1 true (bit 1) _ [] [] rfl)) (.unlock 1 true (bit 1) _ [] [] rfl), ?_, ?_⟩
  · intro t
    by_cases h1 : t = 1
    · subst h1; rfl
    · by_cases h0 : t = 0
      · subst h0; rfl
      · simp [Section.Sys.put, Section.start, h0, h1]
  · decide

/-! ## What is accessed -/

theorem get_accesses (mem : Nat → Byte) (address : Nat) (w : BitVec 32) (datum : List Byte) : ∀ x ∈ (get mem address w datum).2.2, x.address = address ∧ x.size = w.toNat ∧ x.write = false := by
  by_cases h : w.toNat ≠ 1 ∧ w.toNat ≠ 2 ∧ w.toNat ≠ 4 ∧ w.toNat ≠ 8
  · rw [get_bad h]; intro x hx; nomatch hx
  · have hn : w.toNat = 1 ∨ w.toNat = 2 ∨ w.toNat = 4 ∨ w.toNat = 8 := by omega
    rw [get_word rfl hn]
    by_cases hd : w.toNat ∣ address
    · rw [get_aligned _ hn hd]; intro x hx; rcases List.mem_singleton.mp hx with rfl; exact ⟨rfl, rfl, rfl⟩
    · rw [get_unaligned _ hn hd]; intro x hx; nomatch hx

theorem put_accesses (mem : Nat → Byte) (address : Nat) (w : BitVec 32) (datum : List Byte) : ∀ x ∈ (put mem address w datum).2.2, x.address = address ∧ x.size = w.toNat ∧ x.write = true := by
  by_cases h : w.toNat ≠ 1 ∧ w.toNat ≠ 2 ∧ w.toNat ≠ 4 ∧ w.toNat ≠ 8
  · rw [put_bad h]; intro x hx; nomatch hx
  · have hn : w.toNat = 1 ∨ w.toNat = 2 ∨ w.toNat = 4 ∨ w.toNat = 8 := by omega
    rw [put_word rfl hn]
    by_cases hd : w.toNat ∣ address
    · rw [put_aligned _ hn hd]; intro x hx; rcases List.mem_singleton.mp hx with rfl; exact ⟨rfl, rfl, rfl⟩
    · rw [put_unaligned _ hn hd]; intro x hx; nomatch hx

theorem finish_accesses (d : Dev) (a : Arg) (op : Op) (rc : Int) (l : List Access) : ∃ rc' copied, (finish d a op rc l).1 = .done rc' copied l := by
  unfold finish
  split
  · split <;> exact ⟨_, _, rfl⟩
  · exact ⟨_, _, rfl⟩

/-- Every access is to the word that the argument names, and that is not beyond the end of the registers by more than its width. -/
theorem ioctl_accesses (d : Dev) (a : Arg) (rc : Int) (copied : Option Op) (l : List Access) (h : (ioctl d a).1 = .done rc copied l) :
    ∀ x ∈ l, x.address = d.at a ∧ x.size = a.op.width.toNat ∧ a.op.offset ≤ d.length := by
  by_cases h1 : iocWrite a.cmd = true ∧ a.readable = false
  · unfold ioctl first at h
    simp only [] at h
    rw [if_pos h1] at h
    simp only [Result.done.injEq] at h
    rw [← h.2.2]; intro x hx; nomatch hx
  by_cases h2 : iocWrite a.cmd = false
  · unfold ioctl first at h
    simp only [] at h
    rw [if_neg h1, if_pos h2] at h
    nomatch h
  have hr : a.readable = true := by
    cases hr : a.readable with
    | true => rfl
    | false =>
      cases hw : iocWrite a.cmd with
      | true => exact absurd ⟨hw, hr⟩ h1
      | false => exact absurd hw h2
  by_cases h3 : d.length < a.op.offset
  · unfold ioctl first at h
    simp only [] at h
    rw [if_neg h1, if_neg h2, if_pos h3] at h
    simp only [Result.done.injEq] at h
    rw [← h.2.2]; intro x hx; nomatch hx
  have ho : a.op.offset ≤ d.length := BitVec.not_lt.mp h3
  by_cases h4 : a.cmd = READ
  · unfold ioctl first at h
    simp only [] at h
    rw [if_neg h1, if_neg h2, if_neg h3, if_pos h4] at h
    have hacc := get_accesses d.mem (d.base + a.op.offset.toNat) a.op.width a.op.datum
    rcases hg : get d.mem (d.base + a.op.offset.toNat) a.op.width a.op.datum with ⟨rc0, datum, accesses⟩
    rw [hg] at h hacc
    simp only [] at h
    obtain ⟨rc', c', hx⟩ := finish_accesses { d with ioctls := d.ioctls + 1 } a { a.op with datum := datum } rc0 accesses
    rw [hx] at h
    simp only [Result.done.injEq] at h
    rw [← h.2.2]
    exact fun x hx => ⟨(hacc x hx).1, (hacc x hx).2.1, ho⟩
  by_cases h5 : a.cmd = WRITE
  · rw [ioctl_write d a h5 hr ho] at h
    simp only [Result.done.injEq] at h
    rw [← h.2.2]
    intro x hx
    have := put_accesses d.mem (d.at a) a.op.width a.op.datum x hx
    exact ⟨this.1, this.2.1, ho⟩
  by_cases h6 : a.cmd = SET ∨ a.cmd = CLEAR
  · rw [ioctl_modify d a h6 hr ho] at h
    have hacc := get_accesses d.mem (d.at a) a.op.width a.op.datum
    rcases hg : get d.mem (d.at a) a.op.width a.op.datum with ⟨rc0, datum, accesses⟩
    rw [hg] at h hacc
    simp only [] at h hacc
    by_cases h0 : rc0 ≠ 0
    · rw [if_pos h0] at h
      simp only [Result.done.injEq] at h
      rw [← h.2.2]
      exact fun x hx => ⟨(hacc x hx).1, (hacc x hx).2.1, ho⟩
    · rw [if_neg h0] at h
      unfold second at h
      cases hm : modify a.cmd { a.op with datum := datum } a.op.datum with
      | none =>
        rw [hm] at h
        simp only [finish_write _ a (Or.inr h6), Result.done.injEq] at h
        rw [← h.2.2]
        exact fun x hx => ⟨(hacc x hx).1, (hacc x hx).2.1, ho⟩
      | some tmp =>
        rw [hm] at h
        simp only [finish_write _ a (Or.inr h6), Result.done.injEq] at h
        rw [← h.2.2]
        intro x hx
        rcases List.mem_append.mp hx with hx | hx
        · exact ⟨(hacc x hx).1, (hacc x hx).2.1, ho⟩
        · have := put_accesses _ _ _ _ x hx
          exact ⟨this.1, this.2.1, ho⟩
  · unfold ioctl first at h
    simp only [] at h
    rw [if_neg h1, if_neg h2, if_neg h3, if_neg h4, if_neg h5, if_neg h6] at h
    simp only [Result.done.injEq] at h
    rw [← h.2.2]; intro x hx; nomatch hx

/-- C123.  If the word that an application names is among the registers then only these are accessed, whatever else it passes. -/
theorem driver_inside_partial (d : Dev) (a : Arg) (hin : a.op.offset.toNat + a.op.width.toNat ≤ d.length.toNat) (rc : Int) (copied : Option Op) (l : List Access) (h : (ioctl d a).1 = .done rc copied l) : ∀ x ∈ l, Inside d x := by
  intro x hx
  obtain ⟨h1, h2, _⟩ := ioctl_accesses d a rc copied l h x hx
  unfold Inside
  rw [h1, h2]
  simp only [Dev.at]
  omega

example : setting.op.offset.toNat + setting.op.width.toNat ≤ small.length.toNat := by decide

/-- C123.  Whatever an application passes, no byte is accessed that is eight bytes or more after the last one of the registers, or before the first one. -/
theorem driver_near (d : Dev) (a : Arg) (hw : a.op.width.toNat ≤ 8) (rc : Int) (copied : Option Op) (l : List Access) (h : (ioctl d a).1 = .done rc copied l) :
    ∀ x ∈ l, d.base ≤ x.address ∧ x.address + x.size ≤ d.base + d.length.toNat + 8 := by
  intro x hx
  obtain ⟨h1, h2, h3⟩ := ioctl_accesses d a rc copied l h x hx
  have h4 : a.op.offset.toNat ≤ d.length.toNat := h3
  rw [h1, h2]
  simp only [Dev.at]
  omega

/-- C123.  The comparison of the offset with the length lets an application read and write memory after the registers: here eight bytes directly after them. -/
theorem driver_inside_counterexample : ∃ d a d', Proper a ∧ ioctl d a = (.done 0 none [⟨4104, 8, true⟩], d') ∧ ¬ Inside d ⟨4104, 8, true⟩ ∧ d'.mem 4104 = 0xaa#8 ∧ d.mem 4104 = 0#8 := by
  refine ⟨small, ⟨WRITE, ⟨8#64, 8#32, List.replicate 8 0xaa#8, List.replicate 8 0#8⟩, true, true⟩, _, ⟨rfl, rfl, rfl, rfl⟩, rfl, ?_, by decide, rfl⟩
  unfold Inside
  decide

/-- C123.  A command that does not transfer a structure from the application lets the driver use one that has not been initialised; for one that does, this never happens. -/
theorem driver_undefined_iff (d : Dev) (a : Arg) : (ioctl d a).1 = .undefined ↔ iocWrite a.cmd = false := by
  constructor
  · intro h
    rcases driver_failure d a with hu | ⟨rc, c, l, hd, _⟩
    · cases hw : iocWrite a.cmd with
      | false => rfl
      | true =>
        exfalso
        clear hu
        unfold ioctl first at h
        simp only [hw, Bool.true_eq_false, if_false, true_and] at h
        split at h
        · rename_i r e hq
          simp only at h
          subst h
          split at hq
          · simp at hq
          split at hq
          · simp at hq
          split at hq
          · rcases hg : get d.mem (d.base + a.op.offset.toNat) a.op.width a.op.datum with ⟨rc0, datum, accesses⟩
            rw [hg] at hq
            simp only [] at hq
            obtain ⟨rc', c', hx⟩ := finish_accesses { d with ioctls := d.ioctls + 1 } a { a.op with datum := datum } rc0 accesses
            simp [hx] at hq
          split at hq
          · rcases hg : put d.mem (d.base + a.op.offset.toNat) a.op.width a.op.datum with ⟨rc0, mem, accesses⟩
            rw [hg] at hq
            simp only [] at hq
            obtain ⟨rc', c', hx⟩ := finish_accesses { d with mem := mem, ioctls := d.ioctls + 1 } a a.op rc0 accesses
            simp [hx] at hq
          split at hq
          · rcases hg : get d.mem (d.base + a.op.offset.toNat) a.op.width a.op.datum with ⟨rc0, datum, accesses⟩
            rw [hg] at hq
            simp only [] at hq
            split at hq
            · obtain ⟨rc', c', hx⟩ := finish_accesses { d with ioctls := d.ioctls + 1 } a { a.op with datum := datum } rc0 accesses
              simp [hx] at hq
            · simp at hq
          · simp at hq
        · rename_i op l e hq
          unfold second at h
          cases hm : modify a.cmd op a.op.datum with
          | none =>
            rw [hm] at h
            obtain ⟨rc', c', hx⟩ := finish_accesses e a op (-EINVAL) l
            simp [hx] at h
          | some tmp =>
            rw [hm] at h
            simp only [] at h
            obtain ⟨rc', c', hx⟩ := finish_accesses { e with mem := (put e.mem (e.base + op.offset.toNat) op.width tmp).2.1 } a op (put e.mem (e.base + op.offset.toNat) op.width tmp).1
              (l ++ (put e.mem (e.base + op.offset.toNat) op.width tmp).2.2)
            rw [hx] at h
            nomatch h
    · rw [hd] at h; nomatch h
  · intro hw
    have h1 : ¬ (iocWrite a.cmd = true ∧ a.readable = false) := by rw [hw]; simp
    unfold ioctl first
    simp only []
    rw [if_neg h1, if_pos hw]

example : iocWrite 0#32 = false ∧ iocWrite READ = true ∧ iocWrite WRITE = true ∧ iocWrite SET = true ∧ iocWrite CLEAR = true := by decide

end Diminuto.Driver
