import Verif.Lux
import Verif.I2c

/-!
# Model of the driver of an analog to digital converter

`Diminuto/fun/ti/ads1115.h:143-323`, over the model of the I2C feature.  As in the model of the brightness, the arithmetic is that of rational numbers, and `rnd` rounds every constant and every result.
-/

namespace Diminuto.Adc

/-- A word of which the two bytes were stored in memory, in this order, by reading into it (`Diminuto/inc/com/diag/diminuto/diminuto_i2c.h:161-164`), as the host loads it. -/
def load (little : Bool) (m0 m1 : Byte) : BitVec 16 := if little then m1 ++ m0 else m0 ++ m1

/-- `ntohs(3)`, `Diminuto/fun/ti/ads1115.h:148-151`. -/
def dtoh (little : Bool) (datum : BitVec 16) : BitVec 16 := if little then datum.extractLsb' 0 8 ++ datum.extractLsb' 8 8 else datum

/-- `diminuto_i2c_get_word`, `Diminuto/inc/com/diag/diminuto/diminuto_i2c.h:161-164`: what it returns, the bytes of the word, of which those are unchanged that are not stored, and the state. -/
def getWord {σ : Type} (w : I2c.World σ) (fd : Int) (device reg : BitVec 8) (s : σ) : Int × Byte × Byte × σ :=
  match I2c.get w fd device reg 2 s with
  | (r, s) => (r.rc, r.got.getD 0 0#8, r.got.getD 1 0#8, s)

/-- What is in the messages of the configuration, `Diminuto/fun/ti/ads1115.h:209-211`. -/
def message (reg : BitVec 8) (value : BitVec 16) : List Byte := [reg, (value >>> 8).setWidth 8, (value &&& 0xff#16).setWidth 8]

/-- `ti_ads1115_configure`, `Diminuto/fun/ti/ads1115.h:202-233`. -/
def configure {σ : Type} (w : I2c.World σ) (fd : Int) (device : BitVec 8) (lothresh hithresh config : BitVec 16) (s : σ) : Int × σ :=
  match I2c.send w fd device (message 2#8 lothresh) s with
  | (r, s) =>
    if r.rc < 0 then (r.rc, s)
    else match I2c.send w fd device (message 3#8 hithresh) s with
      | (r, s) =>
        if r.rc < 0 then (r.rc, s)
        else match I2c.send w fd device (message 1#8 config) s with | (r, s) => (r.rc, s)

/-- `ti_ads1115_configure_default`, `Diminuto/fun/ti/ads1115.h:241-244`; the constants are at `Diminuto/fun/ti/ads1115.h:75-141`. -/
def configureDefault {σ : Type} (w : I2c.World σ) (fd : Int) (device : BitVec 8) (s : σ) : Int × σ :=
  configure w fd device 0x0000#16 0x8000#16 (0x0000#16 ||| 0x4000#16 ||| 0x0000#16 ||| 0x0000#16 ||| 0x0000#16 ||| 0x0010#16 ||| 0x0008#16 ||| 0x0004#16 ||| 0x0000#16) s

/-- The full scale for the gain, `Diminuto/fun/ti/ads1115.h:257-280`. -/
def pga (config : BitVec 16) : Rat :=
  let gain := config &&& 0x0e00#16
  if gain = 0x0000#16 then 6144 / 1000
  else if gain = 0x0200#16 then 4096 / 1000
  else if gain = 0x0400#16 then 2048 / 1000
  else if gain = 0x0600#16 then 1024 / 1000
  else if gain = 0x0800#16 then 512 / 1000
  else if gain = 0x0a00#16 ∨ gain = 0x0c00#16 ∨ gain = 0x0e00#16 then 256 / 1000
  else 0

/-- `ti_ads1115_rawtovolts`, `Diminuto/fun/ti/ads1115.h:246-294`: what it returns, and what is in the buffer. -/
def rawtovolts (rnd : Rat → Rat) (config raw : BitVec 16) (buffer : Rat) : Int × Rat :=
  if rnd (pga config) > 0 then (0, rnd (rnd ((raw.toInt : Rat) * rnd (pga config)) / 32767)) else (-1, buffer)

/-- `ti_ads1115_sense`, `Diminuto/fun/ti/ads1115.h:303-323`. -/
def sense {σ : Type} (w : I2c.World σ) (rnd : Rat → Rat) (little : Bool) (fd : Int) (device : BitVec 8) (buffer : Rat) (s : σ) : Int × Rat × σ :=
  match getWord w fd device 1#8 s with
  | (rc, c0, c1, s) =>
    if rc < 0 then (rc, buffer, s)
    else match getWord w fd device 0#8 s with
      | (rc, r0, r1, s) =>
        if rc < 0 then (rc, buffer, s)
        else
          ((rawtovolts rnd (dtoh little (load little c0 c1)) (dtoh little (load little r0 r1)) buffer).1,
           (rawtovolts rnd (dtoh little (load little c0 c1)) (dtoh little (load little r0 r1)) buffer).2, s)

end Diminuto.Adc
