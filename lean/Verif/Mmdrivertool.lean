import Verif.Driver
import Verif.Number

/-!
# Model of the tool for the memory mapped driver

`Diminuto/bin/mmdrivertool.c`, with the driver of `Verif/Driver.lean`.  The devices are named, and each of them is a driver of its own; one that there is not cannot be opened.  Closing a device does not fail.  What is printed on the standard error is left out, as are the delays and `getopt(3)`: the options
come with their arguments.
-/

namespace Diminuto.Mmdrivertool

/-- The sizes, `Diminuto/bin/mmdrivertool.c:111-141`. -/
inductive Size where
  | byte | halfword | word | doubleword
deriving DecidableEq

/-- The widths, `Diminuto/inc/com/diag/diminuto/diminuto_datum.h:42-47`. -/
def Size.bytes : Size → Nat
  | .byte => 1
  | .halfword => 2
  | .word => 4
  | .doubleword => 8

/-- The options with their arguments, `Diminuto/bin/mmdrivertool.c:107`: `-1`, `-2`, `-4` and `-8`; `-U`; `-c` and, with a bit, `-C`; `-s` and `-S`; `-w`; `-r`; `-m`; `-u`; `-t` and `-f`; and `-d`, `-?` and anything that `getopt(3)` refuses, for which it returns
a question mark. -/
inductive Opt where
  | at (size : Size) (text : List Byte)
  | device (text : List Byte)
  | clear (bit : Bool) (text : List Byte)
  | set (bit : Bool) (text : List Byte)
  | write (text : List Byte)
  | read
  | mask (text : List Byte)
  | delay (text : List Byte)
  | test (nonzero : Bool)
  | other
deriving DecidableEq

/-- The variables of `main`, `Diminuto/bin/mmdrivertool.c:91-101`, with the name of the device that is open, if one is, with the devices, and with the numbers that have been printed.  The bytes of the datum and of the mask of the operation are in memory order. -/
structure State where
  op : Driver.Op
  mask : BitVec 64
  device : List Byte
  opened : Option (List Byte)
  devices : List Byte → Option Driver.Dev
  out : List Nat

/-- `number`, `Diminuto/bin/mmdrivertool.c:41-50`, with the comparison at each call. -/
def number (t : List Byte) : Option (BitVec 64) := if (Number.unsigned t).2.1 ≠ [] then none else some (BitVec.ofNat 64 (Number.unsigned t).1)

/-- The bytes of the low part of a number. -/
def encode (le : Bool) (n : Nat) (v : BitVec 64) : List Byte :=
  let l := (List.range n).map fun i => (v >>> (8 * i)).setWidth 8
  if le then l else l.reverse

/-- A number of bytes, the lowest first. -/
def little : List Byte → Nat
  | [] => 0
  | b :: l => 256 * little l + b.toNat

/-- The number that the first bytes of a datum are. -/
def decode (le : Bool) (n : Nat) (l : List Byte) : Nat := little (if le then l.take n else (l.take n).reverse)

/-- An assignment to the member of a union for the width, `Diminuto/bin/mmdrivertool.c:153-158`, `:209-214`, `:240-245`. -/
def assign (le : Bool) (n : Nat) (v : BitVec 64) (datum : List Byte) : List Byte := encode le n v ++ datum.drop n

/-- What comes of an option: the next one, the end because of a test, the end because of an error, or undefined behaviour. -/
inductive Outcome where
  | next (s : State)
  | stops (s : State)
  | fails (s : State)
  | undefined

/-- `diminuto_fd_acquire`, `Diminuto/src/diminuto_fd.c:48-59`: nothing, if the device cannot be opened. -/
def acquire (s : State) : Option State :=
  match s.opened with
  | some _ => some s
  | none => if (s.devices s.device).isSome then some { s with opened := some s.device } else none

/-- `control`, `Diminuto/bin/mmdrivertool.c:52-65`, after the device has been acquired. -/
def control (cmd : BitVec 32) (s : State) : Outcome :=
  match acquire s with
  | none => .fails s
  | some s =>
    match s.opened with
    | none => .fails s
    | some name =>
      match s.devices name with
      | none => .fails s
      | some d =>
        match Driver.ioctl d ⟨cmd, s.op, true, true⟩ with
        | (.undefined, _) => .undefined
        | (.done rc copied _, d) =>
          let t := { s with op := copied.getD s.op, devices := fun x => if x = name then some d else s.devices x }
          if rc < 0 then .fails t else .next t

/-- The width of the operation, which is that of one of the sizes. -/
def State.width (s : State) : Nat := s.op.width.toNat

/-- A number with `bit << value` in its place, `Diminuto/bin/mmdrivertool.c:152` and `:208`; nothing if that is not defined. -/
def shifted (bit : Bool) (v : BitVec 64) : Option (BitVec 64) := if bit then (if v.toNat < 64 then some (1#64 <<< v.toNat) else none) else some v

/-- The switch, `Diminuto/bin/mmdrivertool.c:109-258`. -/
def option (le : Bool) (s : State) : Opt → Outcome
  | .at size t =>
    match number t with
    | none => .fails s
    | some v => .next { s with op := { s.op with offset := v, width := BitVec.ofNat 32 size.bytes } }
  | .device t => .next { s with opened := none, device := t }
  | .clear bit t =>
    match number t with
    | none => .fails s
    | some v =>
      match shifted bit v with
      | none => .undefined
      | some v => control Driver.CLEAR { s with op := { s.op with datum := assign le s.width v s.op.datum } }
  | .set bit t =>
    match number t with
    | none => .fails s
    | some v =>
      match shifted bit v with
      | none => .undefined
      | some v => control Driver.SET { s with op := { s.op with datum := assign le s.width v s.op.datum, mask := assign le s.width s.mask s.op.mask } }
  | .write t =>
    match number t with
    | none => .fails s
    | some v => control Driver.WRITE { s with op := { s.op with datum := assign le s.width v s.op.datum } }
  | .read =>
    match control Driver.READ s with
    | .next t => .next { t with out := t.out ++ [decode le t.width t.op.datum] }
    | o => o
  | .mask t =>
    match number t with
    | none => .fails s
    | some v => .next { s with mask := v }
  | .delay t =>
    match number t with
    | none => .fails s
    | some _ => .next s
  | .test nonzero => if (decode le s.width s.op.datum ≠ 0) = (nonzero = true) then .next s else .stops s
  | .other => .next s

/-- What comes of the program: it ends with a status, or its behaviour is undefined. -/
inductive End where
  | exits (status : Nat) (s : State)
  | undefined

/-- `main`, `Diminuto/bin/mmdrivertool.c:107-280`. -/
def main (le : Bool) (s : State) : List Opt → End
  | [] => .exits 0 s
  | o :: os =>
    match option le s o with
    | .next s => main le s os
    | .stops s => .exits 0 s
    | .fails s => .exits 1 s
    | .undefined => .undefined

/-- The beginning, `Diminuto/bin/mmdrivertool.c:91-105`: of the datum only the first four bytes are set, and nothing of the mask; the rest is whatever there is. -/
def State.start (node : List Byte) (devices : List Byte → Option Driver.Dev) (datum mask : List Byte) : State :=
  ⟨⟨0, 4, [0, 0, 0, 0] ++ datum, mask⟩, 0, node, none, devices, []⟩

end Diminuto.Mmdrivertool
