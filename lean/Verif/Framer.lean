import Verif.Fletcher
import Verif.Kermit

/-!
# Model of the Framer feature

Models `Diminuto/src/diminuto_framer.c:42-49`, `:74-740` and `:774-1009`, with
the types of `Diminuto/inc/com/diag/diminuto/diminuto_framer.h`.

The pointer `here` is a field name and an offset.  The 16-bit fields `length0`
and `sequence0`, which are filled byte by byte, are pairs of bytes in memory
order (first byte at the lower address) on a little-endian host; `ntohs` in place
swaps the pair.  A store outside the object pointed to, a read of the payload
beyond the buffer, or a violated `diminuto_contract` makes the step `none`.
`total`, a `size_t`, is a `Nat`.  Logging is not modelled.
-/

namespace Diminuto.Framer

/-- `ESCAPE`, `Diminuto/src/diminuto_framer.h:21`. -/
def ESCAPE : Byte := 0x7d#8
/-- `FLAG`, `Diminuto/src/diminuto_framer.h:22`. -/
def FLAG : Byte := 0x7e#8
/-- `NEWLINE`, `Diminuto/src/diminuto_framer.h:23`. -/
def NEWLINE : Byte := 0x0a#8
/-- `XOFF`, `Diminuto/src/diminuto_framer.h:24`. -/
def XOFF : Byte := 0x13#8
/-- `XON`, `Diminuto/src/diminuto_framer.h:25`. -/
def XON : Byte := 0x11#8
/-- `MASK`, `Diminuto/src/diminuto_framer.h:29`. -/
def MASK : Byte := 0x20#8

/-- `diminuto_framer_state_t`,
`Diminuto/inc/com/diag/diminuto/diminuto_framer.h:155-175`. -/
inductive St
  | abort | complete | failed | final | flag | fletcher | fletcherEscaped | idle | invalid | kermit
  | length | lengthEscaped | newline | overflow | payload | payloadEscaped | reset | sequence
  | sequenceEscaped
  deriving DecidableEq, Repr

/-- `action_t`, `Diminuto/src/diminuto_framer.h:36-46`. -/
inductive Action
  | consume | fletcher | kermit | length | payload | reset | sequence | store | terminate
  deriving DecidableEq, Repr

/-- The objects `here` may point into,
`Diminuto/inc/com/diag/diminuto/diminuto_framer.h:180-201`. -/
inductive Field
  | null | length0 | sequence0 | sum | check | buffer
  deriving DecidableEq, Repr

/-- `diminuto_framer_t`,
`Diminuto/inc/com/diag/diminuto/diminuto_framer.h:180-201`.  `buffer` is the
contents of the application's buffer object.  The `debug` flag is omitted. -/
structure Framer where
  buffer : List Byte
  here : Field × Nat
  size : Nat
  limit : Nat
  total : Nat
  state : St
  length0 : Byte × Byte
  length : Nat
  sequence0 : Byte × Byte
  sequence : BitVec 16
  previous : BitVec 16
  generated : BitVec 16
  crc : BitVec 16
  crc0 : BitVec 16
  a : Byte
  b : Byte
  sum : Byte × Byte
  check : Byte × Byte × Byte
  throttle : Bool
  deriving DecidableEq, Repr

/-- `diminuto_framer_init`, `Diminuto/src/diminuto_framer.c:42-49`, with
`DIMINUTO_FRAMER_INITIALIZER` and `diminuto_framer_set`,
`Diminuto/inc/com/diag/diminuto/diminuto_framer.h:219-233` and `:285-289`. -/
def init (buffer : List Byte) (size : Nat) : Framer :=
  { buffer := buffer, here := (.null, 0), size := size, limit := 0, total := 0, state := .reset,
    length0 := (0#8, 0#8), length := 0, sequence0 := (0#8, 0#8), sequence := 65535#16,
    previous := 65534#16, generated := 65535#16, crc := 0#16, crc0 := 0#16, a := 0#8, b := 0#8,
    sum := (0#8, 0#8), check := (0x20#8, 0x20#8, 0x20#8), throttle := false }

/-- `diminuto_framer_reset`,
`Diminuto/inc/com/diag/diminuto/diminuto_framer.h:271-274`. -/
def reset (f : Framer) : Framer := { f with state := .reset }

/-- The value of a `uint16_t` held in two bytes of little-endian memory. -/
def value16 (m : Byte × Byte) : Nat := m.1.toNat + 256 * m.2.toNat

/-- `ntohs` in place on a little-endian host, `Diminuto/src/diminuto_framer.c:600-601`. -/
def swap (m : Byte × Byte) : Byte × Byte := (m.2, m.1)

/-- The kind of an octet as the `switch (ch)` statements of
`Diminuto/src/diminuto_framer.c:98-536` distinguish them; XON and XOFF have the same
effect in every state. -/
inductive Kind
  | newline | flag | escape | flow | other
  deriving DecidableEq, Repr

/-- See `Kind`; `Diminuto/src/diminuto_framer.c:98-536`. -/
def kind (ch : Byte) : Kind :=
  if ch = NEWLINE then .newline
  else if ch = FLAG then .flag
  else if ch = ESCAPE then .escape
  else if ch = XON then .flow
  else if ch = XOFF then .flow
  else .other

/-- The state switch, `Diminuto/src/diminuto_framer.c:95-539`: the next state and
the action.  The assignments to `throttle` are in `machine`. -/
def transition (s : St) (limit : Nat) (k : Kind) : St × Action :=
  match s, k with
  -- lines 97-115
  | .reset, .flag => (.flag, .reset)
  | .reset, _ => (.reset, .consume)
  -- lines 117-141
  | .flag, .newline => (.invalid, .consume)
  | .flag, .flag => (.flag, .consume)
  | .flag, .escape => (.lengthEscaped, .consume)
  | .flag, .flow => (.flag, .consume)
  | .flag, .other => (.length, .store)
  -- lines 143-170
  | .length, .newline => (.invalid, .consume)
  | .length, .flag => (.flag, .reset)
  | .length, .escape => (.lengthEscaped, .consume)
  | .length, .flow => (.length, .consume)
  | .length, .other => if limit > 1 then (.length, .store) else (.sequence, .length)
  -- lines 172-216
  | .lengthEscaped, .newline => (.invalid, .consume)
  | .lengthEscaped, .flag => (.abort, .consume)
  | .lengthEscaped, .escape => (.invalid, .consume)
  | .lengthEscaped, .flow => (.lengthEscaped, .consume)
  | .lengthEscaped, .other => if limit > 1 then (.length, .store) else (.sequence, .length)
  -- lines 218-245
  | .sequence, .newline => (.invalid, .consume)
  | .sequence, .flag => (.flag, .reset)
  | .sequence, .escape => (.sequenceEscaped, .consume)
  | .sequence, .flow => (.sequence, .consume)
  | .sequence, .other => if limit > 1 then (.sequence, .store) else (.fletcher, .sequence)
  -- lines 247-291
  | .sequenceEscaped, .newline => (.invalid, .consume)
  | .sequenceEscaped, .flag => (.abort, .consume)
  | .sequenceEscaped, .escape => (.invalid, .consume)
  | .sequenceEscaped, .flow => (.sequenceEscaped, .consume)
  | .sequenceEscaped, .other => if limit > 1 then (.sequence, .store) else (.fletcher, .sequence)
  -- lines 293-320
  | .fletcher, .newline => (.invalid, .consume)
  | .fletcher, .flag => (.flag, .reset)
  | .fletcher, .escape => (.fletcherEscaped, .consume)
  | .fletcher, .flow => (.fletcher, .consume)
  | .fletcher, .other => if limit > 1 then (.fletcher, .store) else (.payload, .fletcher)
  -- lines 322-366
  | .fletcherEscaped, .newline => (.invalid, .consume)
  | .fletcherEscaped, .flag => (.abort, .consume)
  | .fletcherEscaped, .escape => (.invalid, .consume)
  | .fletcherEscaped, .flow => (.fletcherEscaped, .consume)
  | .fletcherEscaped, .other => if limit > 1 then (.fletcher, .store) else (.payload, .fletcher)
  -- lines 368-395
  | .payload, .newline => (.invalid, .consume)
  | .payload, .flag => (.flag, .reset)
  | .payload, .escape => (.payloadEscaped, .consume)
  | .payload, .flow => (.payload, .consume)
  | .payload, .other => if limit > 1 then (.payload, .store) else (.kermit, .payload)
  -- lines 397-441
  | .payloadEscaped, .newline => (.invalid, .consume)
  | .payloadEscaped, .flag => (.abort, .consume)
  | .payloadEscaped, .escape => (.invalid, .consume)
  | .payloadEscaped, .flow => (.payloadEscaped, .consume)
  | .payloadEscaped, .other => if limit > 1 then (.payload, .store) else (.kermit, .payload)
  -- lines 443-492
  | .kermit, .newline => (.invalid, .consume)
  | .kermit, .flag => (.flag, .reset)
  | .kermit, .escape => (.invalid, .consume)
  | .kermit, .flow => (.kermit, .consume)
  | .kermit, .other =>
    if limit = 3 then (.kermit, .store)
    else if limit = 2 then (.kermit, .store)
    else if limit = 1 then (.newline, .kermit)
    else (.invalid, .consume)
  -- lines 494-520
  | .newline, .newline => (.complete, .terminate)
  | .newline, .flag => (.flag, .reset)
  | .newline, .flow => (.newline, .consume)
  | .newline, _ => (.invalid, .consume)
  -- lines 522-537
  | s, _ => (s, .consume)

/-- The states in which `default:` applies `ch ^= MASK`
(`Diminuto/src/diminuto_framer.c:206`, `:281`, `:356`, `:431`). -/
def escaped (s : St) : Bool :=
  match s with
  | .lengthEscaped | .sequenceEscaped | .fletcherEscaped | .payloadEscaped => true
  | _ => false

/-- `diminuto_contract(that->limit > 0); *(that->here++) = ch; --(that->limit);`,
e.g. `Diminuto/src/diminuto_framer.c:557-559`. -/
def store (ch : Byte) (f : Framer) : Option Framer :=
  if f.limit = 0 then none
  else
    let g := { f with here := (f.here.1, f.here.2 + 1), limit := f.limit - 1 }
    match f.here with
    | (.length0, 0) => some { g with length0 := (ch, f.length0.2) }
    | (.length0, 1) => some { g with length0 := (f.length0.1, ch) }
    | (.sequence0, 0) => some { g with sequence0 := (ch, f.sequence0.2) }
    | (.sequence0, 1) => some { g with sequence0 := (f.sequence0.1, ch) }
    | (.sum, 0) => some { g with sum := (ch, f.sum.2) }
    | (.sum, 1) => some { g with sum := (f.sum.1, ch) }
    | (.check, 0) => some { g with check := (ch, f.check.2.1, f.check.2.2) }
    | (.check, 1) => some { g with check := (f.check.1, ch, f.check.2.2) }
    | (.check, 2) => some { g with check := (f.check.1, f.check.2.1, ch) }
    | (.buffer, i) => if i < f.buffer.length then some { g with buffer := f.buffer.set i ch } else none
    | _ => none

/-- `RESET`, `Diminuto/src/diminuto_framer.c:543-554`. -/
def actReset (f : Framer) : Framer :=
  { f with here := (.length0, 0), limit := 2, length0 := (0#8, 0#8), total := 1, crc := 0#16,
           a := 0#8, b := 0#8 }

/-- `LENGTH` after the store, `Diminuto/src/diminuto_framer.c:570-573`. -/
def actLength (f : Framer) : Framer :=
  let s := Fletcher.run ⟨0#8, 0#8⟩ [f.length0.1, f.length0.2]
  { f with a := s.a, b := s.b, here := (.sequence0, 0), limit := 2 }

/-- `SEQUENCE` after the store, `Diminuto/src/diminuto_framer.c:584-586`. -/
def actSequence (f : Framer) : Framer :=
  let s := Fletcher.run ⟨f.a, f.b⟩ [f.sequence0.1, f.sequence0.2]
  { f with a := s.a, b := s.b, here := (.sum, 0), limit := 2 }

/-- `FLETCHER` after the store, `Diminuto/src/diminuto_framer.c:593-613`. -/
def actFletcher (f : Framer) : Framer :=
  if f.sum.1 ≠ f.a ∨ f.sum.2 ≠ f.b then { f with state := .failed }
  else
    let f := { f with length0 := swap f.length0, sequence0 := swap f.sequence0 }
    if value16 f.length0 = 0 then { f with here := (.check, 0), limit := 3, state := .kermit }
    else if value16 f.length0 > f.size then { f with state := .overflow }
    else { f with here := (.buffer, 0), limit := value16 f.length0 }

/-- `PAYLOAD` after the store, `Diminuto/src/diminuto_framer.c:619-621`. -/
def actPayload (f : Framer) : Option Framer :=
  if value16 f.length0 ≤ f.buffer.length then
    some { f with crc := Kermit.kermit16 (f.buffer.take (value16 f.length0)) 0#16,
                  here := (.check, 0), limit := 3 }
  else none

/-- `KERMIT` after the store, `Diminuto/src/diminuto_framer.c:628-638`. -/
def actKermit (f : Framer) : Framer :=
  if !Kermit.firstIsValid f.check.1 then { f with state := .failed }
  else if !Kermit.secondIsValid f.check.2.1 then { f with state := .failed }
  else if !Kermit.thirdIsValid f.check.2.2 then { f with state := .failed }
  else
    let f := { f with crc0 := Kermit.chars2crc f.check.1 f.check.2.1 f.check.2.2 }
    if f.crc0 ≠ f.crc then { f with state := .failed } else f

/-- `TERMINATE`, `Diminuto/src/diminuto_framer.c:641-663`. -/
def actTerminate (f : Framer) : Option Framer :=
  let n := value16 f.length0
  let done (f : Framer) : Framer :=
    { f with previous := f.sequence, sequence := BitVec.ofNat 16 (value16 f.sequence0), length := n }
  if n < f.size then
    if n < f.buffer.length then some (done { f with buffer := f.buffer.set n 0#8 }) else none
  else some (done f)

/-- The action switch, `Diminuto/src/diminuto_framer.c:541-671`. -/
def act (action : Action) (ch : Byte) (f : Framer) : Option Framer :=
  match action with
  | .reset => some (actReset f)
  | .store => store ch f
  | .length => (store ch f).map actLength
  | .sequence => (store ch f).map actSequence
  | .fletcher => (store ch f).map actFletcher
  | .payload => (store ch f).bind actPayload
  | .kermit => (store ch f).map actKermit
  | .terminate => actTerminate f
  | .consume => some f

/-- `diminuto_framer_machine` for an octet, `Diminuto/src/diminuto_framer.c:74-684`. -/
def machineByte (f : Framer) (ch : Byte) : Option Framer :=
  let (next, action) := transition f.state f.limit (kind ch)
  let ch' := if escaped f.state && kind ch == .other then ch ^^^ MASK else ch
  let throttle := if ch = XON then false else if ch = XOFF then true else f.throttle
  act action ch' { f with total := f.total + 1, state := next, throttle := throttle }

/-- `diminuto_framer_machine`, `Diminuto/src/diminuto_framer.c:74-684`; the token
`none` is EOF, which enters the state FINAL (lines 88-89), in which `ch`, zero,
has no effect (lines 522-537). -/
def machine (f : Framer) (token : Option Byte) : Option Framer :=
  match token with
  | none => some { f with state := .final }
  | some ch => machineByte f ch

/-- Driving the machine with octets, as `diminuto_framer_reader` does
(`Diminuto/src/diminuto_framer.c:782-791`) without its automatic resets. -/
def feed (f : Framer) : List Byte → Option Framer
  | [] => some f
  | ch :: rest => (machineByte f ch).bind (feed · rest)

/-- The octets `diminuto_framer_emit` escapes, `Diminuto/src/diminuto_framer.c:708-713`. -/
def control (ch : Byte) : Bool :=
  ch == NEWLINE || ch == FLAG || ch == ESCAPE || ch == XON || ch == XOFF

/-- `diminuto_framer_emit`, `Diminuto/src/diminuto_framer.c:686-740`; stream
errors are not modelled. -/
def emit (data : List Byte) : List Byte :=
  data.flatMap fun ch => if control ch then [ESCAPE, ch ^^^ MASK] else [ch]

/-- The two bytes of `htons(w)` in memory, `Diminuto/src/diminuto_framer.c:885`
and `:897`. -/
def be16 (w : BitVec 16) : List Byte := [(w >>> 8).setWidth 8, w.setWidth 8]

/-- `diminuto_framer_writer`, `Diminuto/src/diminuto_framer.c:845-971`: the octets
written and the framer afterwards, or `none` if the length is refused (lines
860-863).  Stream errors are not modelled. -/
def writer (f : Framer) (data : List Byte) : Option (List Byte × Framer) :=
  if data.length > 65535 then none
  else
    let header := be16 (BitVec.ofNat 16 data.length)
    let s1 := Fletcher.run ⟨0#8, 0#8⟩ header
    let f := { f with generated := f.generated + 1 }
    let generated := be16 f.generated
    let s2 := Fletcher.run s1 generated
    let crc := if data.length > 0 then Kermit.kermit16 data 0#16 else 0#16
    let (k1, k2, k3) := Kermit.crc2chars crc
    some ([FLAG] ++ emit header ++ emit generated ++ emit [s2.a, s2.b] ++
      (if data.length > 0 then emit data else []) ++ [k1, k2, k3] ++ [NEWLINE], f)

/-- How a call of `diminuto_framer_read` ends: at the end of the stream, or with a
frame, in which case `rest` is what is left in the stream. -/
inductive ReadResult
  | eof (f : Framer)
  | frame (f : Framer) (rest : List Byte)
  deriving DecidableEq, Repr

/-- `diminuto_framer_reader` called until it returns non-zero, on a stream holding
the given octets and then ending, `Diminuto/src/diminuto_framer.c:774-843` and
`:985-987`.  It returns the `total` of the framer, which is positive then.
Whether `diminuto_file_ready` makes the reader return zero in between makes no
difference, for it is called again at once. -/
def readLoop (f : Framer) : List Byte → Option ReadResult
  | [] => (machine f none).map .eof
  | ch :: rest => (machineByte f ch).bind fun g =>
    match g.state with
    | .complete => if g.length = 0 then readLoop (reset g) rest else some (.frame g rest)
    | .abort | .failed | .overflow | .invalid => readLoop (reset g) rest
    | _ => readLoop g rest

/-- `diminuto_framer_read`, `Diminuto/src/diminuto_framer.c:977-994`: the number of
payload octets is the `length` of the framer. -/
def read (stream buffer : List Byte) (size : Nat) : Option ReadResult :=
  readLoop (init buffer size) stream

/-- `diminuto_framer_getmissing`,
`Diminuto/inc/com/diag/diminuto/diminuto_framer.h:414-418`. -/
def getMissing (f : Framer) : BitVec 16 := f.sequence - 1 - f.previous

/-- `diminuto_framer_getduplicated`,
`Diminuto/inc/com/diag/diminuto/diminuto_framer.h:431-435`. -/
def getDuplicated (f : Framer) : BitVec 16 := f.previous + 1 - f.sequence

end Diminuto.Framer
