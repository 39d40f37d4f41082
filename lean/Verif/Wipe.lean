import Verif.Fletcher

/-!
# Model of the tool that wipes a storage device

`Diminuto/bin/wipe.c`.  The device is a state with a function for `write(2)` and one for `read(2)`, which both begin at the beginning.  Neither the options nor what is printed about the progress are
modelled, `time(2)` and the second `close(2)` do not fail, and the counters are natural numbers: there are fewer than 2^64 errors.
-/

namespace Diminuto.Wipe

/-- `A1` and `A0`, `Diminuto/bin/wipe.c:100-101`. -/
def A1 : BitVec 64 := 4294967311#64
def A0 : BitVec 64 := 17#64

/-- What `write(2)` returns: a number of bytes, which may be zero, a failure with `ENOSPC`, or another failure. -/
inductive Wrote where
  | bytes (n : Nat)
  | nospace
  | failed
deriving DecidableEq

/-- The device: `write(2)` of some bytes, and `read(2)` of up to some number of bytes, where no bytes are the end of the file, and nothing is a failure.  `rewind` is what closing it and opening it
again does to its state. -/
structure Device (σ : Type) where
  write : σ → List Byte → Wrote × σ
  rewind : σ → σ
  read : σ → Nat → Option (List Byte) × σ

/-- What comes out: a value, undefined behaviour, or that the given number of turns has not been enough. -/
inductive Run (α : Type) where
  | done (a : α)
  | undefined
  | unfinished
deriving DecidableEq

/-- The sign of `rc`. -/
inductive Sign where
  | positive | zero | negative
deriving DecidableEq

/-- A word in memory, on a host with either order of bytes. -/
def bytes (little : Bool) (v : BitVec 64) : List Byte :=
  let l := [v.extractLsb' 0 8, v.extractLsb' 8 8, v.extractLsb' 16 8, v.extractLsb' 24 8, v.extractLsb' 32 8, v.extractLsb' 40 8, v.extractLsb' 48 8, v.extractLsb' 56 8]
  if little then l else l.reverse

/-- The step of the pattern, `Diminuto/bin/wipe.c:236` and `:339`. -/
def next (datum : BitVec 64) : BitVec 64 := datum * A1 + A0

/-- The loop that fills the buffer, `Diminuto/bin/wipe.c:232-237`: the buffer and the datum afterwards. -/
def fill (little : Bool) : Nat → BitVec 64 → List Byte × BitVec 64
  | 0, datum => ([], datum)
  | count + 1, datum =>
    let (rest, last) := fill little count (next datum)
    (bytes little datum ++ rest, last)

/-- What is known after writing a block: the sign of `rc`, the device, the bytes written, and the errors. -/
structure Written (σ : Type) where
  rc : Sign
  device : σ
  total : Nat
  errors : Nat

/-- The loop that writes a block, `Diminuto/bin/wipe.c:239-263`; `pointer` is what is left of the buffer, of which `size` bytes are to be written.  The size gets smaller with each turn, if the size of a
sector is not zero, so that it is enough as a number of turns.  That the kernel writes more bytes than it is told to is left undefined, and so is the division by a modulo of zero. -/
def writeBlock {σ : Type} (d : Device σ) (sector modulo : Nat) : Nat → σ → List Byte → Nat → Nat → Nat → Sign → Run (Written σ)
  | _, s, _, 0, total, errors, rc => .done ⟨rc, s, total, errors⟩
  | 0, _, _, _, _, _, _ => .unfinished
  | turns + 1, s, pointer, size, total, errors, _ =>
    match d.write s (pointer.take size) with
    | (.bytes 0, s) => .done ⟨.zero, s, total, errors⟩
    | (.bytes n, s) =>
      if size < n then .undefined
      else if modulo = 0 then .undefined
      else writeBlock d sector modulo turns s (pointer.drop n) (size - n) (total + n) errors .positive
    | (.failed, s) => .done ⟨.negative, s, total, errors + 1⟩
    | (.nospace, s) =>
      if sector < size then writeBlock d sector modulo turns s pointer (size - sector) total errors .negative
      else .done ⟨.negative, s, total, errors⟩

/-- The loop that writes, `Diminuto/bin/wipe.c:230-265`. -/
def writeAll {σ : Type} (d : Device σ) (little : Bool) (block sector modulo : Nat) : Nat → σ → BitVec 64 → Nat → Nat → Run (Written σ)
  | 0, _, _, _, _ => .unfinished
  | turns + 1, s, datum, total, errors =>
    let (buffer, datum) := fill little (block / 8) datum
    match writeBlock d sector modulo block s buffer block total errors .positive with
    | .undefined => .undefined
    | .unfinished => .unfinished
    | .done r => if r.rc = .positive then writeAll d little block sector modulo turns r.device datum r.total r.errors else .done r

/-- What is known after reading a block: the sign of `rc`, the device, what has been read, and the errors. -/
structure Got (σ : Type) where
  rc : Sign
  device : σ
  buffer : List Byte
  errors : Nat

/-- The loop that reads a block, `Diminuto/bin/wipe.c:302-321`; `buffer` is what has been read of it so far. -/
def readBlock {σ : Type} (d : Device σ) (modulo : Nat) : Nat → σ → List Byte → Nat → Nat → Sign → Run (Got σ)
  | _, s, buffer, 0, errors, rc => .done ⟨rc, s, buffer, errors⟩
  | 0, _, _, _, _, _ => .unfinished
  | turns + 1, s, buffer, size, errors, _ =>
    match d.read s size with
    | (some [], s) => .done ⟨.zero, s, buffer, errors⟩
    | (some l, s) =>
      if size < l.length then .undefined
      else if modulo = 0 then .undefined
      else readBlock d modulo turns s (buffer ++ l) (size - l.length) errors .positive
    | (none, s) => .done ⟨.negative, s, buffer, errors + 1⟩

/-- The loop that verifies a block, `Diminuto/bin/wipe.c:331-340`: the offsets that are reported as those of mismatches, and the datum afterwards.  The total includes the block; `got` is
`blocksize - size`.  Two words are equal if their bytes are. -/
def verify (little : Bool) (total got : Nat) : Nat → List Byte → BitVec 64 → List Nat × BitVec 64
  | 0, _, datum => ([], datum)
  | count + 1, data, datum =>
    let (more, last) := verify little total got count (data.drop 8) (next datum)
    (if data.take 8 ≠ bytes little datum then (total - got + (count + 1) * 8) :: more else more, last)

/-- What is known after reading: the device, the bytes read, the errors, and the offsets that have been reported. -/
structure Checked (σ : Type) where
  device : σ
  total : Nat
  errors : Nat
  reported : List Nat

/-- The loop that reads, `Diminuto/bin/wipe.c:300-342`. -/
def readAll {σ : Type} (d : Device σ) (little : Bool) (block modulo : Nat) : Nat → σ → BitVec 64 → Nat → Nat → List Nat → Run (Checked σ)
  | 0, _, _, _, _, _ => .unfinished
  | turns + 1, s, datum, total, errors, reported =>
    match readBlock d modulo block s [] block errors .positive with
    | .undefined => .undefined
    | .unfinished => .unfinished
    | .done g =>
      if g.buffer.length = 0 then .done ⟨g.device, total, g.errors, reported⟩
      else
        let (more, datum) := verify little (total + g.buffer.length) g.buffer.length (g.buffer.length / 8) g.buffer datum
        if g.rc = .positive then readAll d little block modulo turns g.device datum (total + g.buffer.length) (g.errors + more.length) (reported ++ more)
        else .done ⟨g.device, total + g.buffer.length, g.errors + more.length, reported ++ more⟩

/-- `((x + m - 1) / m) * m`, `Diminuto/bin/wipe.c:198-204`, with 64 bits; `m` is not zero. -/
def round (x m : Nat) : Nat := (x + m - 1) % 2 ^ 64 / m * m

/-- What a run of the program comes to: the exit status, the bytes written and read, the offsets that have been reported as those of mismatches, and the device. -/
structure Report (σ : Type) where
  status : Nat
  written : Nat
  read : Nat
  reported : List Nat
  device : σ
deriving DecidableEq

/-- What the system answers: whether the buffer can be allocated, the device opened to write, closed, and opened to read. -/
structure Answers where
  allocates : Bool
  opens : Bool
  closes : Bool
  reopens : Bool
deriving DecidableEq

/-- `main`, `Diminuto/bin/wipe.c:172-379`, with the sizes from the options, and the seed. -/
def main {σ : Type} (d : Device σ) (little : Bool) (answers : Answers) (blocksize sectorsize modulo : Nat) (seed : BitVec 64) (turns : Nat) (s : σ) : Run (Report σ) :=
  let sector := round sectorsize 8
  if sector = 0 then .undefined
  else
    let block := round blocksize sector
    if block = 0 then .undefined
    else
      let modulo := round modulo block
      if answers.allocates = false ∨ answers.opens = false then .done ⟨1, 0, 0, [], s⟩
      else
        match writeAll d little block sector modulo turns s seed 0 0 with
        | .undefined => .undefined
        | .unfinished => .unfinished
        | .done w =>
          let errors := if answers.closes then w.errors else w.errors + 1
          if answers.reopens = false then .done ⟨1, w.total, 0, [], w.device⟩
          else
            match readAll d little block modulo turns (d.rewind w.device) seed 0 errors [] with
            | .undefined => .undefined
            | .unfinished => .unfinished
            | .done c =>
              let errors := if c.total ≠ w.total then c.errors + 1 else c.errors
              .done ⟨if errors > 0 then 1 else 0, w.total, c.total, c.reported, c.device⟩

end Diminuto.Wipe
