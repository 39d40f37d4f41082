import Verif.Fletcher

/-!
# Model of the endpoint parser

`diminuto_ipc_endpoint_prefer`, `Diminuto/src/diminuto_ipc_endpoint.c:98-598`.  The argument is the list of its characters, without the terminating
NUL.  The parser works on a copy in a buffer of fixed size; pointers into the buffer are indices.  Reading beyond the buffer, and a loop that does
not end, are `none`.  The functions that resolve names are parameters.
-/

namespace Diminuto.Endpoint

/-- A character constant. -/
def ch (c : Char) : Byte := BitVec.ofNat 8 c.toNat

/-- `('0' <= *here) && (*here <= '9')`, for example `Diminuto/src/diminuto_ipc_endpoint.c:150`.  Whether `char` is signed makes no difference. -/
def isDigit (b : Byte) : Bool := decide (ch '0' ≤ b) && decide (b ≤ ch '9')

/-- `(('a' <= *here) && (*here <= 'z')) || (('A' <= *here) && (*here <= 'Z'))`, for example `Diminuto/src/diminuto_ipc_endpoint.c:154`. -/
def isLetter (b : Byte) : Bool := (decide (ch 'a' ≤ b) && decide (b ≤ ch 'z')) || (decide (ch 'A' ≤ b) && decide (b ≤ ch 'Z'))

/-- `(('a' <= *here) && (*here <= 'f')) || (('A' <= *here) && (*here <= 'F'))`, `Diminuto/src/diminuto_ipc_endpoint.c:294`. -/
def isHex (b : Byte) : Bool := (decide (ch 'a' ≤ b) && decide (b ≤ ch 'f')) || (decide (ch 'A' ≤ b) && decide (b ≤ ch 'F'))

/-- `state_t`, `Diminuto/src/diminuto_ipc_endpoint.c:81-96`; without `S_IPV4` and `S_HYPHEN`, which are not used. -/
inductive State where
  | start | digit | period | letter | colon | ipv6 | port | fqdn | service | next | path | stop
deriving DecidableEq

/-- The variables of the parser, `Diminuto/src/diminuto_ipc_endpoint.c:100-114`. -/
structure Machine where
  state : State
  here : Nat
  mark : Option Nat
  buffer : List Byte
  name : Option Nat
  fqdn : Option Nat
  ipv4 : Option Nat
  ipv6 : Option Nat
  port : Option Nat
  service : Option Nat
  path : Option Nat
  isIpv4 : Bool
  isIpv6 : Bool
  rc : Int
deriving DecidableEq

/-- `sizeof(diminuto_path_t)`, `Diminuto/inc/com/diag/diminuto/diminuto_types.h:106`. -/
def SIZE : Nat := 4096

/-- `strncpy(buffer, string, sizeof(buffer))`, `Diminuto/src/diminuto_ipc_endpoint.c:128`. -/
def fill (s : List Byte) : List Byte := s.take SIZE ++ List.replicate (SIZE - s.length) 0#8

/-- The variables at the beginning of the loop, `Diminuto/src/diminuto_ipc_endpoint.c:100-130`. -/
def begin (s : List Byte) : Machine :=
  { state := .start, here := 0, mark := none, buffer := fill s, name := none, fqdn := none, ipv4 := none, ipv6 := none, port := none,
    service := none, path := none, isIpv4 := false, isIpv6 := false, rc := -1 }

/-- An iteration of the loop with the character that is read, `Diminuto/src/diminuto_ipc_endpoint.c:138-370`. -/
def advance (m : Machine) (c : Byte) : Machine :=
  match m.state with
  | .start =>
    if c = ch ' ' ∨ c = ch '\t' then { m with here := m.here + 1 }
    else if c = ch ':' then { m with here := m.here + 1, state := .colon }
    else if c = ch '[' then { m with here := m.here + 1, mark := some (m.here + 1), state := .ipv6 }
    else if isDigit c then { m with mark := some m.here, here := m.here + 1, state := .digit }
    else if isLetter c then { m with mark := some m.here, here := m.here + 1, state := .letter }
    else if c = ch '/' then { m with mark := some m.here, here := m.here + 1, state := .path }
    else if c = ch '.' then { m with mark := some m.here, here := m.here + 1, state := .path }
    else if c = 0#8 then { m with mark := some m.here, path := some m.here, state := .stop, rc := 0 }
    else { m with mark := some m.here, here := m.here + 1 }
  | .digit =>
    if c = ch '.' then { m with here := m.here + 1, state := .period }
    else if c = ch '-' then { m with here := m.here + 1, state := .letter }
    else if isDigit c then { m with here := m.here + 1 }
    else if isLetter c then { m with here := m.here + 1, state := .letter }
    else if c = ch '/' then { m with here := m.here + 1, state := .path }
    else if c = 0#8 then { m with port := m.mark, state := .stop, rc := 0 }
    else { m with state := .stop }
  | .period =>
    if c = ch '.' then { m with here := m.here + 1 }
    else if c = ch '-' then { m with here := m.here + 1, state := .fqdn }
    else if c = ch ':' then
      { m with ipv4 := m.mark, isIpv4 := true, buffer := m.buffer.set m.here 0#8, here := m.here + 1, state := .colon }
    else if isDigit c then { m with here := m.here + 1 }
    else if isLetter c then { m with here := m.here + 1, state := .letter }
    else if c = 0#8 then { m with ipv4 := m.mark, isIpv4 := true, state := .stop, rc := 0 }
    else { m with state := .stop }
  | .letter =>
    if c = ch '.' then { m with here := m.here + 1, state := .fqdn }
    else if c = ch '-' then { m with here := m.here + 1, state := .fqdn }
    else if c = ch ':' then { m with fqdn := m.mark, buffer := m.buffer.set m.here 0#8, here := m.here + 1, state := .colon }
    else if isDigit c then { m with here := m.here + 1 }
    else if isLetter c then { m with here := m.here + 1 }
    else if c = ch '/' then { m with here := m.here + 1, state := .path }
    else if c = 0#8 then { m with name := m.mark, state := .stop, rc := 0 }
    else { m with state := .stop }
  | .fqdn =>
    if c = ch '-' then { m with here := m.here + 1 }
    else if c = ch '.' then { m with here := m.here + 1 }
    else if isDigit c then { m with here := m.here + 1 }
    else if isLetter c then { m with here := m.here + 1 }
    else if c = ch ':' then { m with buffer := m.buffer.set m.here 0#8, here := m.here + 1, fqdn := m.mark, state := .colon }
    else if c = ch '/' then { m with here := m.here + 1, state := .path }
    else if c = 0#8 then { m with fqdn := m.mark, state := .stop, rc := 0 }
    else { m with state := .stop }
  | .ipv6 =>
    if c = ch ']' then { m with buffer := m.buffer.set m.here 0#8, here := m.here + 1, ipv6 := m.mark, isIpv6 := true, state := .next }
    else if c = ch ':' then { m with here := m.here + 1 }
    else if c = ch '.' then { m with here := m.here + 1 }
    else if isDigit c then { m with here := m.here + 1 }
    else if isHex c then { m with here := m.here + 1 }
    else { m with state := .stop }
  | .next =>
    if c = ch ':' then { m with here := m.here + 1, state := .colon }
    else if c = 0#8 then { m with state := .stop, rc := 0 }
    else { m with state := .stop }
  | .colon =>
    if isDigit c then { m with mark := some m.here, here := m.here + 1, state := .port }
    else if isLetter c then { m with mark := some m.here, here := m.here + 1, state := .service }
    else if c = 0#8 then { m with state := .stop, rc := 0 }
    else { m with state := .stop }
  | .port =>
    if isDigit c then { m with here := m.here + 1 }
    else if c = 0#8 then { m with port := m.mark, state := .stop, rc := 0 }
    else { m with state := .stop }
  | .service =>
    if isDigit c then { m with here := m.here + 1 }
    else if isLetter c then { m with here := m.here + 1 }
    else if c = 0#8 then { m with service := m.mark, state := .stop, rc := 0 }
    else { m with state := .stop }
  | .path =>
    if c = 0#8 then { m with path := m.mark, state := .stop, rc := 0 }
    else { m with here := m.here + 1 }
  | .stop => { m with state := .stop }

/-- An iteration of the loop, `Diminuto/src/diminuto_ipc_endpoint.c:132-372`. -/
def step (m : Machine) : Option Machine := m.buffer[m.here]?.map (advance m)

/-- The loop, `Diminuto/src/diminuto_ipc_endpoint.c:132-372`; `none` if it does not end within so many iterations. -/
def loop : Nat → Machine → Option Machine
  | 0, _ => none
  | n + 1, m => (step m).bind fun m => if m.state ≠ .stop then loop n m else some m

/-- The string at an index of a buffer: what a function reads that gets a pointer to it; `none` if there is no NUL. -/
def cstr (buffer : List Byte) (i : Nat) : Option (List Byte) :=
  if (buffer.drop i).contains 0#8 then some ((buffer.drop i).takeWhile (· ≠ 0#8)) else none

/-- The string of a pointer that may be null. -/
def pointer (buffer : List Byte) : Option Nat → Option (Option (List Byte))
  | none => some none
  | some i => (cstr buffer i).map some

/-- `diminuto_ipc_type_t`, `Diminuto/inc/com/diag/diminuto/diminuto_ipc.h:579-584`, and also `diminuto_ipc_preference_t`, `:591-595`. -/
inductive Kind where
  | unspecified | ipv4 | ipv6 | locale
deriving DecidableEq

/-- `diminuto_ipc_endpoint_t`, `Diminuto/inc/com/diag/diminuto/diminuto_ipc.h:616-623`. -/
structure Result where
  type : Kind
  ipv4 : BitVec 32
  ipv6 : BitVec 128
  tcp : BitVec 16
  udp : BitVec 16
  locale : List Byte
deriving DecidableEq

/-- `Diminuto/src/diminuto_ipc_endpoint.c:119-124`. -/
def blank : Result := { type := .unspecified, ipv4 := 0, ipv6 := 0, tcp := 0, udp := 0, locale := [] }

/-- The functions that the parser calls, `diminuto_ipc4_address`, `diminuto_ipc6_address`, `diminuto_ipc_port` for TCP and for UDP,
`diminuto_ipcl_path` (failure, or the path), and the global variable `diminuto_ipc_endpoint_ipv6`, `Diminuto/src/diminuto_ipc_endpoint.c:25`. -/
structure Env where
  address4 : List Byte → BitVec 32
  address6 : List Byte → BitVec 128
  tcp : List Byte → BitVec 16
  udp : List Byte → BitVec 16
  path : List Byte → Option (List Byte)
  prefer6 : Bool

/-- `atoi(3)` of digits; `none`, which is undefined behaviour, if the value is not representable in an `int`. -/
def atoi (s : List Byte) : Option Nat :=
  let n := s.foldl (fun n b => n * 10 + (b.toNat - 48)) 0
  if n < 2147483648 then some n else none

/-- `diminuto_ipc6_is_v4mapped`: 80 bits zero and 16 bits one, `Diminuto/inc/com/diag/diminuto/diminuto_ipc6.h:154-156`. -/
def v4mapped (a : BitVec 128) : Bool := decide (a.toNat / 2 ^ 32 = 65535)

/-- The outcome: undefined behaviour or a loop without end, or the return value and the structure. -/
abbrev Outcome := Option (Int × Result)

/-- What is done after the loop with what has been found, `Diminuto/src/diminuto_ipc_endpoint.c:382-597`. -/
def resolve (env : Env) (preference : Kind) (rc : Int) (name fqdn ipv4 ipv6 port service path : Option (List Byte))
    (isIpv4 isIpv6 : Bool) : Outcome :=
  let e := blank
  if rc < 0 then some (rc, e)
  else
    -- :398-417
    let a : Result × Bool × Bool × Int :=
      match fqdn, ipv6, ipv4 with
      | some f, _, _ =>
        let e := { e with ipv4 := env.address4 f, ipv6 := env.address6 f }
        if e.ipv6 ≠ 0 then (e, isIpv4, true, rc)
        else if e.ipv4 ≠ 0 then (e, true, isIpv6, rc)
        else (e, isIpv4, isIpv6, -2)
      | none, some s, _ => ({ e with ipv6 := env.address6 s }, isIpv4, true, rc)
      | none, none, some s => ({ e with ipv4 := env.address4 s }, true, isIpv6, rc)
      | none, none, none => (e, isIpv4, isIpv6, rc)
    -- :427-458
    let b : Result × Int :=
      match fqdn, ipv4, ipv6, name with
      | none, none, none, some n =>
        let e := { a.1 with ipv4 := env.address4 n, ipv6 := env.address6 n }
        if service.isSome then (e, a.2.2.2)
        else if port.isSome then (e, a.2.2.2)
        else if e.ipv6 ≠ 0 then (e, a.2.2.2)
        else if e.ipv4 ≠ 0 then (e, a.2.2.2)
        else
          let e := { e with tcp := env.tcp n, udp := env.udp n }
          if e.tcp ≠ 0 then (e, a.2.2.2) else if e.udp ≠ 0 then (e, a.2.2.2) else (e, -3)
      | _, _, _, _ => (a.1, a.2.2.2)
    -- :467-483
    (match service, port with
      | some s, _ =>
        let e := { b.1 with tcp := env.tcp s, udp := env.udp s }
        some (if e.tcp ≠ 0 then (e, b.2) else if e.udp ≠ 0 then (e, b.2) else (e, -4))
      | none, some p => (atoi p).bind fun n => some ({ b.1 with tcp := BitVec.ofNat 16 n, udp := BitVec.ofNat 16 n }, b.2)
      | none, none => some b : Option (Result × Int)).bind fun c =>
    -- :501-511
    let d : Result × Bool × Int :=
      match path with
      | none => (c.1, false, c.2)
      | some [] => ({ c.1 with locale := [] }, true, c.2)
      | some p =>
        match env.path p with
        | some q => ({ c.1 with locale := q }, true, c.2)
        | none => (c.1, false, -5)
    let e := d.1
    if d.2.2 < 0 then some (d.2.2, e)
    else
      -- :532-563
      let f : Bool × Bool :=
        if e.ipv6 ≠ 0 then
          if e.ipv4 = 0 then (false, true)
          else if v4mapped e.ipv6 then (true, false)
          else if preference = .ipv4 then (true, false)
          else if preference = .ipv6 then (false, true)
          else (!env.prefer6, env.prefer6)
        else if e.ipv4 ≠ 0 then (true, false)
        else if a.2.1 ≠ a.2.2.1 then (a.2.1, a.2.2.1)
        else if preference = .ipv4 then (true, false)
        else if preference = .ipv6 then (false, true)
        else (!env.prefer6, env.prefer6)
      -- :572-580
      let e :=
        if d.2.1 then { e with type := .locale }
        else if f.2 then { e with type := .ipv6 }
        else if f.1 then { e with type := .ipv4 }
        else e
      some (0, e)

/-- `diminuto_ipc_endpoint_prefer`, `Diminuto/src/diminuto_ipc_endpoint.c:98-598`. -/
def prefer (env : Env) (preference : Kind) (s : List Byte) : Outcome :=
  if (fill s)[SIZE - 1]? ≠ some 0#8 then some (0, blank)
  else
    (loop (SIZE + 1) (begin s)).bind fun m =>
    (pointer m.buffer m.name).bind fun name =>
    (pointer m.buffer m.fqdn).bind fun fqdn =>
    (pointer m.buffer m.ipv4).bind fun ipv4 =>
    (pointer m.buffer m.ipv6).bind fun ipv6 =>
    (pointer m.buffer m.port).bind fun port =>
    (pointer m.buffer m.service).bind fun service =>
    (pointer m.buffer m.path).bind fun path =>
    resolve env preference m.rc name fqdn ipv4 ipv6 port service path m.isIpv4 m.isIpv6

end Diminuto.Endpoint
