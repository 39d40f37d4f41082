import Verif.Fletcher

/-!
# Model of the functions of the C library that read a stream

The functions `fread(3)`, `fgetc(3)` and `fgets(3)` of the GNU C library, which the tools of the project call.  A stream is what is still to come of it: the bytes, and between them the failures of the reading, after which it can be tried again;
it ends with the end of the file, which is remembered.  The buffer of the stream is not modelled.
-/

namespace Diminuto.Stdio

/-- A stream that is being read, `Diminuto/bin/shaperbuffered.c:117-157`: what is still to come, with a failure as nothing, and the two indicators. -/
structure Stream where
  items : List (Option Byte)
  eof : Bool
  error : Bool
deriving DecidableEq

/-- How a reading of several bytes has stopped: after all that it should read, at the end of the file, or with a failure. -/
inductive Stop where
  | full
  | eof
  | error
deriving DecidableEq

/-- Reads bytes until there are as many as asked for or, if lines are asked for, up to the end of the line; for `Diminuto/bin/shaperbuffered.c:124`, `:133` and `Diminuto/bin/log.c:205`. -/
def gather (line : Bool) : Nat → List (Option Byte) → List Byte × Stop × List (Option Byte)
  | 0, r => ([], .full, r)
  | _ + 1, [] => ([], .eof, [])
  | _ + 1, none :: r => ([], .error, r)
  | n + 1, some b :: r =>
    if line && b = 10#8 then ([b], .full, r)
    else
      let (bs, stop, r) := gather line n r
      (b :: bs, stop, r)

/-- The stream after a reading has stopped, with the indicators, `Diminuto/bin/shaperbuffered.c:144-146`. -/
def Stream.after (s : Stream) (stop : Stop) (items : List (Option Byte)) : Stream :=
  ⟨items, s.eof || stop = .eof, s.error || stop = .error⟩

/-- `fread(3)` of bytes, `Diminuto/bin/shaperbuffered.c:124`: the bytes, which are fewer than asked for at the end of the file or if the reading fails.  After the end of the file there are none. -/
def fread (n : Nat) (s : Stream) : List Byte × Stream :=
  if s.eof then ([], s)
  else
    let (bs, stop, r) := gather false n s.items
    (bs, s.after stop r)

/-- `fgets(3)`, `Diminuto/bin/shaperbuffered.c:133` and `Diminuto/bin/log.c:205`: the bytes that are stored before the terminating zero, or nothing for a null pointer.  With room for the terminating zero only nothing is read and nothing is
wrong.  If the reading fails what has been read of the line is lost. -/
def fgets (n : Int) (s : Stream) : Option (List Byte) × Stream :=
  if n ≤ 0 then (none, s)
  else if n = 1 then (some [], s)
  else if s.eof then (none, s)
  else
    let (bs, stop, r) := gather true (n.toNat - 1) s.items
    (if bs = [] || stop = .error then none else some bs, s.after stop r)

/-- What a string function sees of bytes that have been stored before a terminating zero, `Diminuto/bin/shaperbuffered.c:135`, `:177` and `Diminuto/bin/log.c:207`. -/
def text (bs : List Byte) : List Byte := bs.takeWhile (· ≠ 0#8)

/-- The conversion of a `size_t` to the `int` that `fgets(3)` takes, `Diminuto/bin/shaperbuffered.c:133` and `Diminuto/bin/log.c:205`. -/
def int (size : BitVec 64) : Int := (size.truncate 32).toInt

end Diminuto.Stdio
