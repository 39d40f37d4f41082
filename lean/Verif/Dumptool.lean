import Verif.Dump

/-!
# Model of the tool that dumps files

Models `Diminuto/bin/dump.c`.  What is printed in the format of the dump, and what is copied, are lists of bytes; the messages of `perror(3)` and of the menu are left out, and so are errors of the streams that are written, which the program ignores.
`getopt(3)` is left out: the options and the names come as two lists.  The failure of `fclose(3)` has no effect but a message.
-/

namespace Diminuto.Dumptool

open Dump

/-- What a stream has to give: bytes, and between them the calls of `read(2)` that return nothing or fail.  The end of the list is the end of the file.  Where the end of a file is sticky, there is no `eof` in the list. -/
inductive Event where
  | byte (b : Byte)
  | eof
  | error
deriving DecidableEq

/-- `fread(3)` of at most `n` bytes, `Diminuto/bin/dump.c:49`: the bytes, what remains, and if there was an error. -/
def fread : Nat → List Event → List Byte × List Event × Bool
  | 0, s => ([], s, false)
  | _ + 1, [] => ([], [], false)
  | n + 1, .byte b :: s => (b :: (fread n s).1, (fread n s).2)
  | _ + 1, .eof :: s => ([], s, false)
  | _ + 1, .error :: s => ([], s, true)

/-- The format, `Diminuto/bin/dump.c:50`. -/
def format : Format := general false 46#8 0

/-- The loop of `dump`, `Diminuto/bin/dump.c:49-53`: what is printed, what is copied, what remains in the stream, and `ferror(3)`.  The first number bounds the iterations of this loop, and `fuel` those of the loops of the library. -/
def pour (fuel : Nat) : Nat → List Event → BitVec 64 → Option (List Byte × List Byte × List Event × Bool)
  | 0, _, _ => none
  | n + 1, s, offset =>
    if (fread 16 s).1.length > 0 then
      (dump format (fread 16 s).1 offset fuel).bind fun o =>
      (pour fuel n (fread 16 s).2.1 (offset + BitVec.ofNat 64 (fread 16 s).1.length)).bind fun q =>
      some (o ++ q.1, (fread 16 s).1 ++ q.2.1, q.2.2.1, (fread 16 s).2.2 || q.2.2.2)
    else some ([], [], (fread 16 s).2)

/-- `dump`, `Diminuto/bin/dump.c:43-54`.  Each iteration but the last one takes a byte. -/
def dumps (fuel : Nat) (s : List Event) : Option (List Byte × List Byte × List Event × Bool) := pour fuel (s.length + 1) s 0#64

/-- The exit status, what has been printed in the format of the dump, and what has been copied. -/
structure Result where
  status : Nat
  dumped : List Byte
  copied : List Byte
deriving DecidableEq

/-- The loop over the names, `Diminuto/bin/dump.c:85-108`.  `w` gives the streams that `fopen(3)` returns. -/
def files (fuel : Nat) (w : List Byte → Option (List Event)) : List (List Byte) → List Event → Option Result
  | [], _ => some ⟨0, [], []⟩
  | name :: names, stdin =>
    if name = [45#8] then
      (dumps fuel stdin).bind fun q =>
      if q.2.2.2 then some ⟨3, q.1, q.2.1⟩
      else (files fuel w names q.2.2.1).bind fun r => some ⟨r.status, q.1 ++ r.dumped, q.2.1 ++ r.copied⟩
    else
      match w name with
      | none => some ⟨2, [], []⟩
      | some s =>
        (dumps fuel s).bind fun q =>
        if q.2.2.2 then some ⟨3, q.1, q.2.1⟩
        else (files fuel w names stdin).bind fun r => some ⟨r.status, q.1 ++ r.dumped, q.2.1 ++ r.copied⟩

/-- An option, `Diminuto/bin/dump.c:67-80`. -/
inductive Opt where
  | tee
  | menu
deriving DecidableEq

/-- What the program leaves: the exit status, and what is on its two streams. -/
structure Outcome where
  status : Nat
  stdout : List Byte
  stderr : List Byte
deriving DecidableEq

/-- `main`, `Diminuto/bin/dump.c:56-119`. -/
def main (fuel : Nat) (w : List Byte → Option (List Event)) (opts : List Opt) (names : List (List Byte)) (stdin : List Event) : Option Outcome :=
  if .menu ∈ opts then some ⟨1, [], []⟩
  else
    (if names.length > 0 then files fuel w names stdin
     else (dumps fuel stdin).bind fun q => some ⟨if q.2.2.2 then 3 else 0, q.1, q.2.1⟩).bind fun r =>
    some (if .tee ∈ opts then ⟨r.status, r.copied, r.dumped⟩ else ⟨r.status, r.dumped, []⟩)

end Diminuto.Dumptool
