import Verif.AdcLemmas

/-! # Properties of the driver of an analog to digital converter -/

namespace Diminuto.Adc

variable {rnd : Rat → Rat}

/-- Whatever the configuration, the conversion succeeds, and the voltage is that of the raw value at the full scale of the gain, but for rounding; what was in the buffer does not matter. -/
theorem adc_close (h : Rounding rnd) (config raw : BitVec 16) (buffer : Rat) : (rawtovolts rnd config raw buffer).1 = 0 ∧ |(rawtovolts rnd config raw buffer).2 - raw.toInt * fullScale (gain config) / 32767| ≤ |raw.toInt * fullScale (gain config) / 32767| / 2 ^ 50 := by
  rw [rawtovolts_eq h]
  exact ⟨rfl, volts_abs h _ _ (by linarith [(fullScale_bounds (gain config)).1])⟩

example : fullScale (gain 0x8583#16) = 2048 / 1000 ∧ (0x8001#16 : BitVec 16).toInt = -32767 := ⟨rfl, by decide⟩

/-- With the same gain, a greater raw value is a greater voltage: no two raw values are confused by rounding. -/
theorem adc_order (h : Rounding rnd) (config config' raw raw' : BitVec 16) (buffer buffer' : Rat) (hg : gain config = gain config') (hr : raw.toInt < raw'.toInt) : (rawtovolts rnd config raw buffer).2 < (rawtovolts rnd config' raw' buffer').2 := by
  have a := (adc_close h config raw buffer).2
  have b := (adc_close h config' raw' buffer').2
  rw [← hg] at b
  have f := fullScale_bounds (gain config)
  have l0 : -32768 ≤ raw.toInt := BitVec.le_toInt raw
  have l1 : raw.toInt < 32768 := BitVec.toInt_lt (x := raw)
  have m0 : -32768 ≤ raw'.toInt := BitVec.le_toInt raw'
  have m1 : raw'.toInt < 32768 := BitVec.toInt_lt (x := raw')
  generalize (rawtovolts rnd config raw buffer).2 = u at *
  generalize (rawtovolts rnd config' raw' buffer').2 = v at *
  generalize fullScale (gain config) = F at *
  have g : (raw.toInt : Rat) + 1 ≤ raw'.toInt := by exact_mod_cast hr
  have k0 : (-32768 : Rat) ≤ raw.toInt := by exact_mod_cast l0
  have k1 : (raw.toInt : Rat) ≤ 32768 := by exact_mod_cast l1.le
  have k2 : (-32768 : Rat) ≤ raw'.toInt := by exact_mod_cast m0
  have k3 : (raw'.toInt : Rat) ≤ 32768 := by exact_mod_cast m1.le
  generalize (raw.toInt : Rat) = m at *
  generalize (raw'.toInt : Rat) = n at *
  have F0 : 0 < F := by linarith [f.1]
  have x0 : |m * F / 32767| ≤ 32768 * F / 32767 := by
    rw [abs_le]
    constructor <;> nlinarith
  have x1 : |n * F / 32767| ≤ 32768 * F / 32767 := by
    rw [abs_le]
    constructor <;> nlinarith
  have y : m * F + F ≤ n * F := by nlinarith
  rw [abs_le] at a b
  generalize |m * F / 32767| = p at *
  generalize |n * F / 32767| = q at *
  generalize m * F = mF at *
  generalize n * F = nF at *
  have a2 := a.2
  have b1 := b.1
  norm_num at a2 b1 x0 x1
  linarith

example : gain 0x8583#16 = gain 0x8483#16 ∧ (0xffff#16 : BitVec 16).toInt < (0#16 : BitVec 16).toInt := by decide

/-- No raw value but the least exceeds the full scale, but for rounding. Missing for the full claim, that the voltage is always within the full scale: the least raw value, see `adc_range_counterexample`. -/
theorem adc_range_partial (h : Rounding rnd) (config raw : BitVec 16) (buffer : Rat) (hr : raw ≠ 0x8000#16) : |(rawtovolts rnd config raw buffer).2| ≤ fullScale (gain config) * (1 + 1 / 2 ^ 50) := by
  have a := (adc_close h config raw buffer).2
  have f := fullScale_bounds (gain config)
  have l0 : -32768 ≤ raw.toInt := BitVec.le_toInt raw
  have l1 : raw.toInt < 32768 := BitVec.toInt_lt (x := raw)
  have l2 : raw.toInt ≠ -32768 := fun e => hr (BitVec.eq_of_toInt_eq (e.trans (by decide)))
  have k0 : (-32767 : Rat) ≤ raw.toInt := by exact_mod_cast (show -32767 ≤ raw.toInt by omega)
  have k1 : (raw.toInt : Rat) ≤ 32767 := by exact_mod_cast (show raw.toInt ≤ 32767 by omega)
  generalize (rawtovolts rnd config raw buffer).2 = u at *
  generalize fullScale (gain config) = F at *
  generalize (raw.toInt : Rat) = m at *
  have F0 : 0 < F := by linarith [f.1]
  have x0 : |m * F / 32767| ≤ F := by
    rw [abs_le]
    constructor <;> nlinarith
  have t := abs_sub_abs_le_abs_sub u (m * F / 32767)
  generalize |m * F / 32767| = p at *
  norm_num at a ⊢
  linarith

example : (0x7fff#16 : BitVec 16) ≠ 0x8000#16 ∧ (0x7fff#16 : BitVec 16).toInt = 32767 := by decide

/-- The least raw value is a voltage beyond the full scale, and the step from zero is more than that of the data sheet, which is the full scale divided by 32768: whatever the gain. -/
theorem adc_range_counterexample (h : Rounding rnd) (config : BitVec 16) (buffer : Rat) : (rawtovolts rnd config 0x8000#16 buffer).2 < -fullScale (gain config) ∧ fullScale (gain config) / 32768 < (rawtovolts rnd config 1#16 buffer).2 := by
  have a := (adc_close h config 0x8000#16 buffer).2
  have b := (adc_close h config 1#16 buffer).2
  have f := fullScale_bounds (gain config)
  have e0 : (0x8000#16 : BitVec 16).toInt = -32768 := by decide
  have e1 : (1#16 : BitVec 16).toInt = 1 := by decide
  rw [e0] at a
  rw [e1] at b
  generalize (rawtovolts rnd config 0x8000#16 buffer).2 = u at *
  generalize (rawtovolts rnd config 1#16 buffer).2 = v at *
  generalize fullScale (gain config) = F at *
  push_cast at a b
  have x0 : |-32768 * F / 32767| = 32768 * F / 32767 := by
    rw [abs_of_nonpos (by linarith)]
    ring
  have x1 : |1 * F / 32767| = F / 32767 := by
    rw [abs_of_nonneg (by linarith)]
    ring
  rw [x0, abs_le] at a
  rw [x1, abs_le] at b
  have a2 := a.2
  have b1 := b.1
  norm_num at a2 b1
  constructor <;> linarith [f.1]

/-- The first of the two bytes is the higher, whatever the byte order of the host. -/
theorem adc_bytes (little : Bool) (m0 m1 : Byte) : (dtoh little (load little m0 m1)).toNat = m0.toNat * 256 + m1.toNat := by
  rw [dtoh_load, BitVec.toNat_append, ← Nat.shiftLeft_add_eq_or_of_lt m1.isLt, Nat.shiftLeft_eq]

example : dtoh true (load true 0x12#8 0x34#8) = 0x1234#16 := by decide

/-- The configuration sets the three registers of the device as they are given, and nothing else. -/
theorem adc_configure (fd : Int) (device : BitVec 8) (lothresh hithresh config : BitVec 16) (s : Dev) : (configure dev fd device lothresh hithresh config s).1 = 3 ∧ ∀ q, (configure dev fd device lothresh hithresh config s).2.regs q = if q = 1#8 then config else if q = 2#8 then lothresh else if q = 3#8 then hithresh else s.regs q := by
  refine ⟨rfl, fun q => ?_⟩
  have e : (configure dev fd device lothresh hithresh config s).2.regs q = if q = 1#8 then ((config >>> 8).setWidth 8 : Byte) ++ ((config &&& 0xff#16).setWidth 8 : Byte) else if q = 3#8 then ((hithresh >>> 8).setWidth 8 : Byte) ++ ((hithresh &&& 0xff#16).setWidth 8 : Byte) else if q = 2#8 then ((lothresh >>> 8).setWidth 8 : Byte) ++ ((lothresh &&& 0xff#16).setWidth 8 : Byte) else s.regs q := rfl
  rw [e, message_bytes, message_bytes, message_bytes]
  by_cases h1 : q = 1#8
  · rw [if_pos h1, if_pos h1]
  · rw [if_neg h1, if_neg h1]
    by_cases h2 : q = 2#8
    · subst h2
      rfl
    · rw [if_neg h2, if_neg h2]

/-- Whatever the bus does, the configuration fails if and only if one of the three messages does, and then no other is sent. -/
theorem adc_configure_fails {σ : Type} (w : I2c.World σ) (fd : Int) (device : BitVec 8) (lothresh hithresh config : BitVec 16) (s : σ) (r1 r2 r3 : I2c.Result) (s1 s2 s3 : σ)
    (h1 : I2c.send w fd device [2#8, lothresh.extractLsb' 8 8, lothresh.extractLsb' 0 8] s = (r1, s1))
    (h2 : I2c.send w fd device [3#8, hithresh.extractLsb' 8 8, hithresh.extractLsb' 0 8] s1 = (r2, s2))
    (h3 : I2c.send w fd device [1#8, config.extractLsb' 8 8, config.extractLsb' 0 8] s2 = (r3, s3)) :
    (r1.rc < 0 → configure w fd device lothresh hithresh config s = (r1.rc, s1)) ∧
    (0 ≤ r1.rc → r2.rc < 0 → configure w fd device lothresh hithresh config s = (r2.rc, s2)) ∧
    (0 ≤ r1.rc → 0 ≤ r2.rc → configure w fd device lothresh hithresh config s = (r3.rc, s3)) := by
  rw [← message_eq] at h1 h2 h3
  unfold configure
  rw [h1]
  simp only []
  rw [h2]
  simp only []
  rw [h3]
  simp only []
  refine ⟨fun g => if_pos g, fun g k => ?_, fun g k => ?_⟩
  · rw [if_neg (by omega), if_pos k]
  · rw [if_neg (by omega), if_neg (by omega)]

example (s : Dev) : (I2c.send dev 3 0x48#8 [2#8, 0x80#8, 0x00#8] s).1.rc = 3 := rfl

/-- After the default configuration the device converts continuously the first input at the greatest full scale, and the pin that says when a conversion is complete is in use, which is so if the highest bit of the high threshold is one and that of the low threshold zero. -/
theorem adc_default (fd : Int) (device : BitVec 8) (s : Dev) :
    fullScale (gain ((configureDefault dev fd device s).2.regs 1#8)) = 6144 / 1000 ∧
    ((configureDefault dev fd device s).2.regs 1#8).extractLsb' 8 1 = 0#1 ∧
    ((configureDefault dev fd device s).2.regs 1#8).extractLsb' 12 3 = 4#3 ∧
    ((configureDefault dev fd device s).2.regs 1#8).extractLsb' 0 2 ≠ 3#2 ∧
    ((configureDefault dev fd device s).2.regs 2#8).msb = false ∧ ((configureDefault dev fd device s).2.regs 3#8).msb = true := by
  have c := (adc_configure fd device 0x0000#16 0x8000#16 0x401c#16 s).2
  have e1 : (configureDefault dev fd device s).2.regs 1#8 = 0x401c#16 := c 1#8
  have e2 : (configureDefault dev fd device s).2.regs 2#8 = 0x0000#16 := c 2#8
  have e3 : (configureDefault dev fd device s).2.regs 3#8 = 0x8000#16 := c 3#8
  rw [e1, e2, e3]
  exact ⟨rfl, by decide, by decide, by decide, by decide, by decide⟩

/-- What is sensed is the voltage for what is in the registers of the conversion and of the configuration, whatever the byte order of the host; no register is changed. -/
theorem adc_sense (little : Bool) (fd : Int) (device : BitVec 8) (buffer : Rat) (s : Dev) : (sense dev rnd little fd device buffer s).1 = (rawtovolts rnd (s.regs 1#8) (s.regs 0#8) buffer).1 ∧ (sense dev rnd little fd device buffer s).2.1 = (rawtovolts rnd (s.regs 1#8) (s.regs 0#8) buffer).2 ∧ (sense dev rnd little fd device buffer s).2.2.regs = s.regs := by
  have e : sense dev rnd little fd device buffer s =
    ((rawtovolts rnd (dtoh little (load little ((s.regs 1#8).extractLsb' 8 8) ((s.regs 1#8).extractLsb' 0 8))) (dtoh little (load little ((s.regs 0#8).extractLsb' 8 8) ((s.regs 0#8).extractLsb' 0 8))) buffer).1,
     (rawtovolts rnd (dtoh little (load little ((s.regs 1#8).extractLsb' 8 8) ((s.regs 1#8).extractLsb' 0 8))) (dtoh little (load little ((s.regs 0#8).extractLsb' 8 8) ((s.regs 0#8).extractLsb' 0 8))) buffer).2, ⟨0#8, s.regs⟩) := rfl
  rw [e, dtoh_load, dtoh_load, bytes_append, bytes_append]
  exact ⟨rfl, rfl, rfl⟩

/-- After the configuration, what is sensed is the voltage at the full scale of the gain that was configured. -/
theorem adc_configured (h : Rounding rnd) (little : Bool) (fd : Int) (device : BitVec 8) (lothresh hithresh config : BitVec 16) (buffer : Rat) (s : Dev) :
    (sense dev rnd little fd device buffer (configure dev fd device lothresh hithresh config s).2).1 = 0 ∧
    |(sense dev rnd little fd device buffer (configure dev fd device lothresh hithresh config s).2).2.1 - (s.regs 0#8).toInt * fullScale (gain config) / 32767| ≤ |(s.regs 0#8).toInt * fullScale (gain config) / 32767| / 2 ^ 50 := by
  have a := adc_sense (rnd := rnd) little fd device buffer (configure dev fd device lothresh hithresh config s).2
  have c := (adc_configure fd device lothresh hithresh config s).2
  have c0 : (configure dev fd device lothresh hithresh config s).2.regs 0#8 = s.regs 0#8 := (c 0#8).trans (by simp)
  have c1 : (configure dev fd device lothresh hithresh config s).2.regs 1#8 = config := (c 1#8).trans (by simp)
  rw [c0, c1] at a
  rw [a.1, a.2.1]
  exact adc_close h config (s.regs 0#8) buffer

/-- Whatever the bus does, if sensing fails the buffer is as it was; and it fails only if the bus does. -/
theorem adc_sense_fails (h : Rounding rnd) {σ : Type} (w : I2c.World σ) (little : Bool) (fd : Int) (device : BitVec 8) (buffer : Rat) (s : σ) :
    ((sense w rnd little fd device buffer s).1 < 0 → (sense w rnd little fd device buffer s).2.1 = buffer) ∧
    (sense w rnd little fd device buffer s).1 ≤ 0 ∧
    ((sense w rnd little fd device buffer s).1 = 0 ↔ 0 ≤ (I2c.get w fd device 1#8 2 s).1.rc ∧ 0 ≤ (I2c.get w fd device 0#8 2 (I2c.get w fd device 1#8 2 s).2).1.rc) := by
  unfold sense getWord
  simp only []
  generalize I2c.get w fd device 1#8 2 s = r
  obtain ⟨r, t⟩ := r
  simp only []
  by_cases g : r.rc < 0
  · rw [if_pos g]
    exact ⟨fun _ => rfl, g.le, fun e => by simp only [] at e; omega, fun e => by omega⟩
  · rw [if_neg g]
    generalize I2c.get w fd device 0#8 2 t = q
    obtain ⟨q, v⟩ := q
    simp only []
    by_cases k : q.rc < 0
    · rw [if_pos k]
      exact ⟨fun _ => rfl, k.le, fun e => by simp only [] at e; omega, fun e => by omega⟩
    · rw [if_neg k, rawtovolts_eq h]
      exact ⟨fun e => by simp at e, le_refl _, fun _ => by omega, fun _ => rfl⟩

/-- If fewer bytes are transferred than are asked for, sensing nevertheless succeeds, with the voltage for another raw value: 0x1200 instead of 0x1234. -/
theorem adc_short_counterexample (little : Bool) (fd : Int) (device : BitVec 8) (buffer : Rat) : ∃ s : Dev, s.regs 0#8 = 0x1234#16 ∧ s.regs 1#8 = 0x0400#16 ∧ ((sense slow rnd little fd device buffer s).1, (sense slow rnd little fd device buffer s).2.1) = rawtovolts rnd 0x0400#16 0x1200#16 buffer := by
  refine ⟨⟨0#8, fun q => if q = 1#8 then 0x0400#16 else 0x1234#16⟩, rfl, rfl, ?_⟩
  have e : ((sense slow rnd little fd device buffer ⟨0#8, fun q => if q = 1#8 then 0x0400#16 else 0x1234#16⟩).1, (sense slow rnd little fd device buffer ⟨0#8, fun q => if q = 1#8 then 0x0400#16 else 0x1234#16⟩).2.1) =
    rawtovolts rnd (dtoh little (load little (0x0400#16 |>.extractLsb' 8 8) 0#8)) (dtoh little (load little (0x1234#16 |>.extractLsb' 8 8) 0#8)) buffer := rfl
  rw [e, dtoh_load, dtoh_load]
  rfl

end Diminuto.Adc
