/-!
# Model of the Fletcher-16 feature

Models `Diminuto/src/diminuto_fletcher.c:15-38`.

Bytes are `BitVec 8`.  The local counters of the C code are `uint16_t`; their
largest value before a reduction is 255 + 255 = 510, so the 16-bit additions
never wrap and the model computes them in `Nat` before the `% 0xff`.
-/

namespace Diminuto

/-- An octet. -/
abbrev Byte := BitVec 8

namespace Fletcher

/-- The two running counters `*ap` and `*bp` of
`Diminuto/src/diminuto_fletcher.c:15`. -/
structure State where
  a : Byte
  b : Byte
  deriving DecidableEq, Repr

/-- One iteration of the loop in `Diminuto/src/diminuto_fletcher.c:25-28`.
The 16-bit locals are reduced modulo 255 in each iteration, hence fit a byte, so
carrying them as bytes (as the code does between calls, lines 22-23 and 30-31)
loses nothing. -/
def step (s : State) (x : Byte) : State :=
  let a := (s.a.toNat + x.toNat) % 0xff
  let b := (s.b.toNat + a) % 0xff
  { a := BitVec.ofNat 8 a, b := BitVec.ofNat 8 b }

/-- The loop of `Diminuto/src/diminuto_fletcher.c:25-31`: the counters after the
whole buffer. -/
def run (s : State) (buffer : List Byte) : State :=
  buffer.foldl step s

/-- The result computed in `Diminuto/src/diminuto_fletcher.c:33-37`: `B` in the
high byte, `A` in the low byte. -/
def result (s : State) : BitVec 16 :=
  ((s.b.setWidth 16) <<< 8) ||| s.a.setWidth 16

/-- `diminuto_fletcher_16`, `Diminuto/src/diminuto_fletcher.c:15-38`: the
returned checksum and the updated counters. -/
def fletcher16 (buffer : List Byte) (s : State) : BitVec 16 × State :=
  let s' := run s buffer
  (result s', s')

end Fletcher
end Diminuto
