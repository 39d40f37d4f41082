import Verif.Lux
import Verif.I2c
import Verif.Number

/-!
# Model of reading a light sensor, and of the tool that computes the brightness

`avago_apds9301_sense`, `Diminuto/fun/avago/apds9301.h:303-343`, over the model of the I2C feature, and `Diminuto/fun/luxcompute.c:45-121`.
-/

namespace Diminuto.Luxtool

/-- `diminuto_i2c_get_byte`, `Diminuto/inc/com/diag/diminuto/diminuto_i2c.h:148-151`: what it returns, and the datum, which is unchanged if nothing is stored. -/
def getByte {σ : Type} (w : I2c.World σ) (fd : Int) (device reg : BitVec 8) (datum : Byte) (s : σ) : Int × Byte × σ :=
  ((I2c.get w fd device reg 1 s).1.rc, (I2c.get w fd device reg 1 s).1.got.headD datum, (I2c.get w fd device reg 1 s).2)

/-- `avago_apds9301_sense`, `Diminuto/fun/avago/apds9301.h:303-343`: what it returns, what is in the buffer, and the state. -/
def sense {σ : Type} (w : I2c.World σ) (rnd pow : Rat → Rat) (fd : Int) (device : BitVec 8) (buffer : Rat) (s : σ) : Int × Rat × σ :=
  match getByte w fd device (0x80#8 ||| 0x40#8 ||| 0xc#8) 0#8 s with
  | (rc, d0, s) =>
    if rc < 0 then (rc, buffer, s)
    else match getByte w fd device (0x80#8 ||| 0xd#8) d0 s with
      | (rc, d1, s) =>
        if rc < 0 then (rc, buffer, s)
        else
          let chan0 : BitVec 16 := (d1.setWidth 16 <<< 8) ||| d0.setWidth 16
          match getByte w fd device (0x80#8 ||| 0xe#8) d1 s with
          | (rc, d2, s) =>
            if rc < 0 then (rc, buffer, s)
            else match getByte w fd device (0x80#8 ||| 0xf#8) d2 s with
              | (rc, d3, s) =>
                if rc < 0 then (rc, buffer, s)
                else
                  let chan1 : BitVec 16 := (d3.setWidth 16 <<< 8) ||| d2.setWidth 16
                  (0, Lux.lux rnd pow chan0.toNat chan1.toNat, s)

/-- What the tool does: it prints the usage and returns 1, prints the extremes and returns 0, complains about an argument and returns 1, or prints the brightness and returns 0; or it passes the null pointer
to `strtoul(3)`. -/
inductive Outcome where
  | usage
  | extremes (min max : Nat × Nat × Rat)
  | invalid (arg : List Byte)
  | brightness (lux : Rat)
  | undefined

/-- The greatest `double`, `Diminuto/fun/luxcompute.c:67`. -/
def MAXDOUBLE : Rat := (2 ^ 53 - 1) * 2 ^ 971

/-- The least positive normalized `double`, `Diminuto/fun/luxcompute.c:68`. -/
def MINDOUBLE : Rat := 1 / 2 ^ 1022

/-- The body of the loops, `Diminuto/fun/luxcompute.c:73-76`. -/
def visit (f : Nat → Nat → Rat) (st : (Nat × Nat × Rat) × (Nat × Nat × Rat)) (raw : Nat × Nat) : (Nat × Nat × Rat) × (Nat × Nat × Rat) :=
  (if f raw.1 raw.2 < st.1.2.2 then (raw.1, raw.2, f raw.1 raw.2) else st.1,
   if f raw.1 raw.2 > st.2.2.2 then (raw.1, raw.2, f raw.1 raw.2) else st.2)

/-- The values of the channels in the order of the loops, `Diminuto/fun/luxcompute.c:69-82`; each is less than `n`. -/
def raws (n : Nat) : List (Nat × Nat) := (List.range n).flatMap fun a => (List.range n).map fun b => (a, b)

/-- The loops, `Diminuto/fun/luxcompute.c:63-82`. -/
def extremes (f : Nat → Nat → Rat) (n : Nat) : (Nat × Nat × Rat) × (Nat × Nat × Rat) := (raws n).foldl (visit f) ((0, 0, MAXDOUBLE), (0, 0, MINDOUBLE))

/-- `main`, `Diminuto/fun/luxcompute.c:45-121`; the arguments are those after the name of the program.  The length of an argument array is that of the list, and after it is the null pointer.  The assignment
to a `uint16_t` keeps the lower bits.  What the option `-d` prints is left out. -/
def main (rnd pow : Rat → Rat) (args : List (List Byte)) : Outcome :=
  if args = [[45#8, 112#8]] then .extremes (extremes (Lux.lux rnd pow) 65536).1 (extremes (Lux.lux rnd pow) 65536).2
  else if args.length < 2 then .usage
  else
    let offset := if args[0]? = some [45#8, 100#8] then 1 else 0
    match args[offset]? with
    | none => .undefined
    | some arg0 =>
      if (Number.strtoull arg0).2.1 ≠ [] then .invalid arg0
      else
        match args[offset + 1]? with
        | none => .undefined
        | some arg1 =>
          if (Number.strtoull arg1).2.1 ≠ [] then .invalid arg1
          else .brightness (Lux.lux rnd pow ((Number.strtoull arg0).1 % 65536) ((Number.strtoull arg1).1 % 65536))

end Diminuto.Luxtool
