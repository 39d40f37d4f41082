import Verif.Escape

/-!
# Model of collapsing in place, and of the tool that collapses its arguments

Models `Diminuto/src/diminuto_escape.c:17-144` where `to` and `from` are the same, and `Diminuto/bin/collapse.c`, which calls it so.  The memory is the list of the bytes at the pointer; reading or writing elsewhere is undefined behaviour, `none`.
Messages are left out.
-/

namespace Diminuto.Collapsetool

open Escape

/-- A byte is stored. -/
def put (mem : List Byte) (i : Nat) (b : Byte) : Option (List Byte) := if i < mem.length then some (mem.set i b) else none

/-- The end, `Diminuto/src/diminuto_escape.c:138-143`: the memory and the number that is returned. -/
def ending (mem : List Byte) (tt tsize : Nat) : Option (List Byte × Nat) :=
  if 0 < tsize then (put mem tt 0#8).bind fun mem => some (mem, tt + 1) else some (mem, tt)

/-- The loop, `Diminuto/src/diminuto_escape.c:27-136`, which reads at `ff` what may have been written at `tt`.  Digits are read before the byte is stored.  The number bounds the iterations. -/
def inplace : Nat → List Byte → Nat → Nat → Nat → Option (List Byte × Nat)
  | 0, _, _, _, _ => none
  | fuel + 1, mem, ff, tt, tsize =>
    if tsize ≤ 1 then ending mem tt tsize
    else
      mem[ff]?.bind fun c =>
      if c = 0x00#8 then ending mem tt tsize
      else if c = 0x5c#8 then
        mem[ff + 1]?.bind fun d =>
        if d = 0x00#8 then inplace fuel mem (ff + 1) tt tsize
        else if d = 0x0a#8 then inplace fuel mem (ff + 2) tt tsize
        else if d = 0x0d#8 then inplace fuel mem (ff + 2) tt tsize
        else if d = 0x78#8 then
          (digits hexValue 16 2 (mem.drop (ff + 2)) 0#8).bind fun kb =>
          if kb.1 = 0 then (put mem tt c).bind fun mem => inplace fuel mem (ff + 1) (tt + 1) (tsize - 1)
          else (put mem tt kb.2).bind fun mem => inplace fuel mem (ff + 2 + kb.1) (tt + 1) (tsize - 1)
        else if (octalValue d).isSome then
          (digits octalValue 8 3 (mem.drop (ff + 1)) 0#8).bind fun kb =>
          (put mem tt kb.2).bind fun mem => inplace fuel mem (ff + 1 + kb.1) (tt + 1) (tsize - 1)
        else (put mem tt (letter d)).bind fun mem => inplace fuel mem (ff + 2) (tt + 1) (tsize - 1)
      else (put mem tt c).bind fun mem => inplace fuel mem (ff + 1) (tt + 1) (tsize - 1)

/-- The function with `to` and `from` the same, `Diminuto/src/diminuto_escape.c:17-144`.  Each iteration takes a byte. -/
def collapses (mem : List Byte) (tsize : Nat) : Option (List Byte × Nat) := inplace (mem.length + 1) mem 0 0 tsize

/-- The loop over the arguments, `Diminuto/bin/collapse.c:42-70`: the exit status and what has been written.  An argument has no nul in it.  `w` is what `fwrite(3)` returns the n-th time, of bytes that are to be written; it is at most their number. -/
def arguments (w : Nat → List Byte → Nat) : Nat → List (List Byte) → Option (Nat × List Byte)
  | _, [] => some (0, [])
  | n, arg :: args =>
    if (arg ++ [0#8]).head? = some 0#8 then arguments w n args
    else
      (collapses (arg ++ [0#8]) (arg.length + 1)).bind fun ms =>
      if ms.2 < 1 ∨ ms.1.head? = some 0#8 then arguments w n args
      else
        let data := ms.1.take (ms.2 - 1)
        if w n data ≠ ms.2 - 1 then some (1, data.take (w n data))
        else (arguments w (n + 1) args).bind fun r => some (r.1, data ++ r.2)

/-- `main`, `Diminuto/bin/collapse.c:33-73`. -/
def main (w : Nat → List Byte → Nat) (args : List (List Byte)) : Option (Nat × List Byte) := arguments w 0 args

end Diminuto.Collapsetool
