import Verif.Gpiotool
import Verif.PinSpec
import Verif.InternettoolSpec

/-!
# Specification: the tool that gets and puts a pin (C177)

The kernel is that of the specification of pins, and the numbers are those of the C library, `Internettool.Sized`.
-/

namespace Diminuto.Gpiotool

open Pin

/-- What the arguments ask for: to get the value of a pin, or to put one. -/
inductive Asks : List (List Byte) → Nat → Option Nat → Prop
  | get {p : List Byte} {pin : Nat} (h : Internettool.Sized p pin) : Asks [p] pin none
  | put {p v : List Byte} {pin value : Nat} (hp : Internettool.Sized p pin) (hv : Internettool.Sized v value) : Asks [p, v] pin (some value)

/-- The pin is as before, but for its direction and its value, which the program has set or left; it is not exported any more, and every stream that has been opened has been closed. -/
structure After (k k' : Kernel) (output value : Bool) : Prop where
  exported : k'.exported = false
  output : k'.output = output
  value : k'.value = value
  streams : k'.streams = k.streams

end Diminuto.Gpiotool
