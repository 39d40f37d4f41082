import Verif.Luxtool
import Verif.I2cSpec
import Verif.LineSpec
import Verif.NumberSpec

/-! # What reading a light sensor, and the tool that computes the brightness, should do -/

namespace Diminuto.Luxtool

/-- Registers are read one after the other, one byte from each. -/
inductive Reads {σ : Type} (w : I2c.World σ) (fd : Int) (device : BitVec 8) : List (BitVec 8) → σ → List Byte → σ → Prop
  | nil {s : σ} : Reads w fd device [] s [] s
  | cons {reg : BitVec 8} {regs : List (BitVec 8)} {s t u : σ} {rc : Int} {b : Byte} {bs : List Byte} : I2c.get w fd device reg 1 s = (⟨rc, [b]⟩, t) → 0 ≤ rc → Reads w fd device regs t bs u →
      Reads w fd device (reg :: regs) s (b :: bs) u

/-- The registers of the data, the lower byte of a channel before the higher one; with the command bit, and with the first the one that clears the interrupt. -/
def registers : List (BitVec 8) := [0xcc#8, 0x8d#8, 0x8e#8, 0x8f#8]

/-- A read of one byte that succeeds stores one. -/
def Stores {σ : Type} (w : I2c.World σ) : Prop := ∀ fd device reg s r t, I2c.get w fd device reg 1 s = (r, t) → 0 ≤ r.rc → ∃ b, r.got = [b]

/-- An operand has a value: it is a numeral, perhaps with a sign, or empty, which is zero. -/
def Operand (t : List Byte) (v : Nat) : Prop := (t = [] ∧ v = 0) ∨ (t ≠ [] ∧ ∃ neg n, Number.Reads t neg n [] ∧ Line.Value neg n v)

end Diminuto.Luxtool
