import Verif.Fletcher

/-!
# Model of the print hexadecimal feature

Models `Diminuto/src/diminuto_phex.c:15-85`.

The `FILE` is the list of the bytes written to it; that writing may fail, and flushing, are left out.
-/

namespace Diminuto.Phex

/-- A character constant (ASCII). -/
def ch (c : Char) : Byte := BitVec.ofNat 8 c.toNat

/-- The state variables `*currentp` and `*endp`, which the application initialises to zero. -/
structure State where
  current : BitVec 64 := 0#64
  ended : Bool := false
  deriving DecidableEq

/-- `diminuto_phex_limit`, `Diminuto/src/diminuto_phex.c:19-36`.  The increment is an `ssize_t`; adding it to a `size_t` converts it. -/
def limit (length increment : BitVec 64) (s : State) : List Byte × State :=
  if length = 0#64 then ([], s)
  else if increment.toInt < 0 ∧ s.ended = false then ([ch '\n'], { s with ended := true })
  else if increment = 0#64 ∧ s.current > 0#64 ∧ s.ended = false then ([ch '\n'], { s with ended := true })
  else
    let current := s.current + increment
    if current > length then ([ch '\n'], { current := increment, ended := true })
    else ([], { current := current, ended := false })

/-- The digits of the `%2.2x` conversion. -/
def digit (n : Nat) : Byte := BitVec.ofNat 8 (if n < 10 then 48 + n else 87 + n)

/-- `fprintf(fp, "\\x%2.2x", ch)`, `Diminuto/src/diminuto_phex.c:42`. -/
def hexadecimal (c : Byte) : List Byte := [ch '\\', ch 'x', digit (c.toNat / 16), digit (c.toNat % 16)]

/-- `SPECIAL`, `Diminuto/src/diminuto_phex.c:17`. -/
def SPECIAL : List Byte := [ch 'a', ch 'b', ch 't', ch 'n', ch 'v', ch 'f', ch 'r']

/-- The options of `diminuto_phex_emit`, `Diminuto/src/diminuto_phex.c:38`. -/
structure Options where
  length : BitVec 64
  nl : Bool
  esc : Bool
  hex : Bool

/-- The increment passed to the limit function and the characters written after it, in each branch of `diminuto_phex_emit`,
`Diminuto/src/diminuto_phex.c:40-81`; `none` for reading outside of `SPECIAL`. -/
def token (o : Options) (c : Byte) : Option (BitVec 64 × List Byte) :=
  if c = 0#8 ∧ o.hex then some (4#64, hexadecimal c)
  else if c = 0#8 then some (2#64, [ch '\\', ch '0'])
  else if c = ch '\n' ∧ o.nl then some (-1#64, [])
  else if (7#8 ≤ c ∧ c ≤ 13#8) ∧ o.hex then some (4#64, hexadecimal c)
  else if 7#8 ≤ c ∧ c ≤ 13#8 then (SPECIAL[(c - 7#8).toNat]?).map fun x => (2#64, [ch '\\', x])
  else if c = ch '\\' ∧ o.hex then some (4#64, hexadecimal c)
  else if c = ch '\\' then some (2#64, [ch '\\', c])
  else if (c = ch '"' ∨ c = ch '\'' ∨ c = ch '?') ∧ o.esc ∧ o.hex then some (4#64, hexadecimal c)
  else if (c = ch '"' ∨ c = ch '\'' ∨ c = ch '?') ∧ o.esc then some (2#64, [ch '\\', c])
  else if ch ' ' ≤ c ∧ c ≤ ch '~' then some (1#64, [c])
  else some (4#64, hexadecimal c)

/-- `diminuto_phex_emit`, `Diminuto/src/diminuto_phex.c:38-85`. -/
def emit (o : Options) (c : Byte) (s : State) : Option (List Byte × State) :=
  (token o c).map fun t =>
    let r := limit o.length t.1 s
    (r.1 ++ t.2, r.2)

/-- Emitting the bytes of a list, one after another, as `Diminuto/bin/phex.c:131` does. -/
def emitAll (o : Options) : List Byte → State → Option (List Byte × State)
  | [], s => some ([], s)
  | c :: cs, s => (emit o c s).bind fun r => (emitAll o cs r.2).map fun q => (r.1 ++ q.1, q.2)

end Diminuto.Phex
