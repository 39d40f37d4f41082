import Verif.Adc
import Verif.LuxSpec

/-! # What the driver of an analog to digital converter should do -/

namespace Diminuto.Adc

/-- Rounding to 53 bits, also of negative numbers. -/
structure Rounding (rnd : Rat → Rat) : Prop extends Lux.Rounding rnd where
  odd : ∀ x, rnd (-x) = -rnd x

/-- The full scale in Volts, by the three bits of the gain; table 9 of the data sheet. -/
def fullScale (gain : BitVec 3) : Rat := [6144 / 1000, 4096 / 1000, 2048 / 1000, 1024 / 1000, 512 / 1000, 256 / 1000, 256 / 1000, 256 / 1000].getD gain.toNat 0

/-- The three bits of the gain in the configuration. -/
def gain (config : BitVec 16) : BitVec 3 := config.extractLsb' 9 3

/-- The device: a pointer, and registers of 16 bits, the higher byte of which is transferred first. -/
structure Dev where
  pointer : BitVec 8
  regs : BitVec 8 → BitVec 16

/-- The system calls if there is nothing else on the bus: a message is the pointer, perhaps followed by the content of the register; what is read is the content of the register at the pointer. -/
def dev : I2c.World Dev where
  slave _ _ s := (0, s)
  write _ data s :=
    match data with
    | [p] => (1, { s with pointer := p })
    | [p, h, l] => (3, ⟨p, fun q => if q = p then h ++ l else s.regs q⟩)
    | _ => (data.length, s)
  read _ n s := (n, [(s.regs s.pointer).extractLsb' 8 8, (s.regs s.pointer).extractLsb' 0 8].take n, s)

/-- A bus on which only one byte is transferred at a time. -/
def slow : I2c.World Dev := { dev with read := fun fd _ s => (1, (dev.read fd 1 s).2.1, s) }

end Diminuto.Adc
