import Verif.Fletcher

/-!
# Model of the Hamming(8,4) feature

Models `Diminuto/src/diminuto_hamming.h` and `Diminuto/src/diminuto_hamming.c`.
The C expressions are evaluated in `int` and truncated to `uint8_t`; every shift
below stays under bit 8 except the correction mask, which is modelled in 16 bits
before truncation.
-/

namespace Diminuto.Hamming

/-- `((sym & BIT) >> OFF)` of `Diminuto/src/diminuto_hamming.h:58-136`: the single
bit at offset `off`, in bit 0. -/
def bit (sym : Byte) (off : Nat) : Byte := (sym &&& (1 <<< off)) >>> off

/-- `diminuto_hamming84_dat2sym`, `Diminuto/src/diminuto_hamming.h:58-65`, with the
offsets of lines 22-50 (D1..D4 = 3..0; S1 = 5, S2 = 3, S3 = 2, S4 = 1). -/
def dat2sym (nib : Byte) : Byte :=
  (bit nib 3 <<< 5) ||| (bit nib 2 <<< 3) ||| (bit nib 1 <<< 2) ||| (bit nib 0 <<< 1)

/-- `diminuto_hamming84_sym2dat`, `Diminuto/src/diminuto_hamming.h:73-80`. -/
def sym2dat (sym : Byte) : Byte :=
  (bit sym 5 <<< 3) ||| (bit sym 3 <<< 2) ||| (bit sym 2 <<< 1) ||| (bit sym 1 <<< 0)

/-- `diminuto_hamming84_sym2par1`, `Diminuto/src/diminuto_hamming.h:89-95`. -/
def sym2par1 (sym : Byte) : Byte := (bit sym 5 ^^^ bit sym 3 ^^^ bit sym 1) <<< 7

/-- `diminuto_hamming84_sym2par2`, `Diminuto/src/diminuto_hamming.h:104-110`. -/
def sym2par2 (sym : Byte) : Byte := (bit sym 5 ^^^ bit sym 2 ^^^ bit sym 1) <<< 6

/-- `diminuto_hamming84_sym2par3`, `Diminuto/src/diminuto_hamming.h:119-125`. -/
def sym2par3 (sym : Byte) : Byte := (bit sym 3 ^^^ bit sym 2 ^^^ bit sym 1) <<< 4

/-- `diminuto_hamming84_sym2par4`, `Diminuto/src/diminuto_hamming.h:134-144`. -/
def sym2par4 (sym : Byte) : Byte :=
  (bit sym 7 ^^^ bit sym 6 ^^^ bit sym 5 ^^^ bit sym 4 ^^^ bit sym 3 ^^^ bit sym 2 ^^^
    bit sym 1) <<< 0

/-- The case labels of `diminuto_hamming84_sym_is_valid`,
`Diminuto/src/diminuto_hamming.h:157-179`. -/
def validSymbols : List Byte :=
  [0x00, 0xd2, 0x55, 0x87, 0x99, 0x4b, 0xcc, 0x1e, 0xe1, 0x33, 0xb4, 0x66, 0x78, 0xaa, 0x2d, 0xff]

/-- `diminuto_hamming84_sym_is_valid`, `Diminuto/src/diminuto_hamming.h:157-179`. -/
def symIsValid (sym : Byte) : Bool := validSymbols.contains sym

/-- `diminuto_hamming84_sym2off`, `Diminuto/src/diminuto_hamming.h:187-193`: a
value from 1 to 8. -/
def sym2off (sym : Byte) : Byte :=
  8 - ((((sym2par1 sym ^^^ (sym &&& 0x80)) >>> 7) <<< 0) |||
       (((sym2par2 sym ^^^ (sym &&& 0x40)) >>> 6) <<< 1) |||
       (((sym2par3 sym ^^^ (sym &&& 0x10)) >>> 4) <<< 2))

/-- `diminuto_hamming84_nib2sym`, `Diminuto/src/diminuto_hamming.c:16-24`. -/
def nib2sym (nib : Byte) : Byte :=
  let sym := dat2sym nib
  let sym := sym ||| (sym2par1 sym ||| sym2par2 sym ||| sym2par3 sym)
  sym ||| sym2par4 sym

/-- `diminuto_hamming84_sym2nib`, `Diminuto/src/diminuto_hamming.c:26-48`: the
returned nibble and `*errorsp`.  The mask `1 << off` of line 33 is an `int`;
XOR-ing it into the `uint8_t` drops bit 8. -/
def sym2nib (sym : Byte) : Byte × Nat :=
  if symIsValid sym then (sym2dat sym, 0)
  else
    let fix := ((sym.setWidth 16) ^^^ ((1 : BitVec 16) <<< (sym2off sym).toNat)).setWidth 8
    if symIsValid fix then (sym2dat fix, 1)
    else
      let fix := sym ^^^ 0x01
      if symIsValid fix then (sym2dat fix, 1)
      else (0, 2)

end Diminuto.Hamming
