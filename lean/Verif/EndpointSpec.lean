import Verif.Endpoint

/-!
# Specification: the endpoint parser
-/

namespace Diminuto.Endpoint

/-- The host of an endpoint. -/
inductive Target where
  | none
  | name (h : List Byte)
  | fqdn (h : List Byte)
  | ipv4 (h : List Byte)
  | ipv6 (h : List Byte)
deriving DecidableEq

/-- The port of an endpoint. -/
inductive Port where
  | none
  | number (p : List Byte)
  | service (p : List Byte)
deriving DecidableEq

/-- An endpoint. -/
inductive Phrase where
  | path (p : List Byte)
  | net (t : Target) (p : Port)
deriving DecidableEq

/-- Letters and digits. -/
def alnum (b : Byte) : Bool := isDigit b || isLetter b

/-- What may be in a host name. -/
def hostChar (b : Byte) : Bool := alnum b || b = ch '.' || b = ch '-'

/-- What may be in an IPv4 address. -/
def digitDot (b : Byte) : Bool := isDigit b || b = ch '.'

/-- What may be in an IPv6 address. -/
def addressChar (b : Byte) : Bool := isDigit b || isHex b || b = ch ':' || b = ch '.'

/-- What an endpoint begins with.  All characters before are ignored. -/
def starter (b : Byte) : Bool := alnum b || b = ch ':' || b = ch '[' || b = ch '/' || b = ch '.'

/-- What follows the colon. -/
def portOf (r : List Byte) : Option Port :=
  match r with
  | [] => some .none
  | c :: _ =>
    if isDigit c then (if r.all isDigit then some (.number r) else none)
    else if isLetter c && r.all alnum then some (.service r)
    else none

/-- What a string of letters, digits, dots and hyphens is. -/
inductive HostKind where
  | digits | ipv4 | name | fqdn
deriving DecidableEq

/-- A string of digits, a hyphen, and letters and digits. -/
def dashed (h : List Byte) : Bool :=
  match h.dropWhile isDigit with
  | c :: v => decide (c = ch '-') && v.all alnum
  | [] => false

/-- A string of digits is a port; of digits and dots an IPv4 address; anything without dots and hyphens, but for dots among digits at the beginning or
a hyphen after digits at the beginning, a name; anything else a domain name. -/
def hostKind (h : List Byte) : HostKind :=
  if h.all isDigit then .digits
  else if h.all digitDot then .ipv4
  else if (h.dropWhile digitDot).all alnum || dashed h then .name
  else .fqdn

/-- An endpoint that begins with a host, or with what looks like one, and the rest. -/
def withHost (k : HostKind) (h d : List Byte) : Option Phrase :=
  match d with
  | [] =>
    some (match k with
      | .digits => .net .none (.number h)
      | .ipv4 => .net (.ipv4 h) .none
      | .name => .net (.name h) .none
      | .fqdn => .net (.fqdn h) .none)
  | c :: u =>
    if c = ch ':' then
      match k with
      | .digits => none
      | .ipv4 => (portOf u).map (.net (.ipv4 h))
      | .name => (portOf u).map (.net (.fqdn h))
      | .fqdn => (portOf u).map (.net (.fqdn h))
    else if c = ch '/' then (if k = .ipv4 then none else some (.path (h ++ d)))
    else none

/-- What follows the opening bracket. -/
def bracketed (r : List Byte) : Option Phrase :=
  match r.dropWhile addressChar with
  | [] => none
  | c :: t =>
    if c = ch ']' then
      match t with
      | [] => some (.net (.ipv6 (r.takeWhile addressChar)) .none)
      | c :: u => if c = ch ':' then (portOf u).map (.net (.ipv6 (r.takeWhile addressChar))) else none
    else none

/-- The grammar of endpoints: what a string stands for; nothing, if it has a syntax error. -/
def grammar (s : List Byte) : Option Phrase :=
  match s.dropWhile (fun c => !starter c) with
  | [] => some (.path [])
  | c :: r =>
    if c = ch '/' ∨ c = ch '.' then some (.path (c :: r))
    else if c = ch ':' then (portOf r).map (.net .none)
    else if c = ch '[' then bracketed r
    else withHost (hostKind ((c :: r).takeWhile hostChar)) ((c :: r).takeWhile hostChar) ((c :: r).dropWhile hostChar)

/-- The number for which a string of digits stands. -/
def value (p : List Byte) : Nat := p.foldl (fun n b => n * 10 + (b.toNat - 48)) 0

/-- The address family, if there are addresses of both, or of none. -/
def choose (env : Env) (preference : Kind) : Kind :=
  match preference with
  | .ipv4 => .ipv4
  | .ipv6 => .ipv6
  | _ => if env.prefer6 then .ipv6 else .ipv4

/-- The address family of a host and its addresses. -/
def family (env : Env) (preference : Kind) (t : Target) (a4 : BitVec 32) (a6 : BitVec 128) : Kind :=
  if a6 ≠ 0 ∧ a4 ≠ 0 then (if v4mapped a6 then .ipv4 else choose env preference)
  else if a6 ≠ 0 then .ipv6
  else if a4 ≠ 0 then .ipv4
  else
    match t with
    | .ipv4 _ => .ipv4
    | .ipv6 _ => .ipv6
    | _ => choose env preference

/-- The addresses of a host. -/
def addresses (env : Env) : Target → BitVec 32 × BitVec 128
  | .none => (0, 0)
  | .name h => (env.address4 h, env.address6 h)
  | .fqdn h => (env.address4 h, env.address6 h)
  | .ipv4 h => (env.address4 h, 0)
  | .ipv6 h => (0, env.address6 h)

/-- The ports: those of the port; for a name without addresses and without a port, those of the service of that name. -/
def ports (env : Env) : Target → Port → BitVec 16 × BitVec 16
  | _, .number p => (BitVec.ofNat 16 (value p), BitVec.ofNat 16 (value p))
  | _, .service p => (env.tcp p, env.udp p)
  | .name h, .none => if env.address4 h = 0 ∧ env.address6 h = 0 then (env.tcp h, env.udp h) else (0, 0)
  | _, .none => (0, 0)

/-- The return value: there must be such a service, such a host, or such a name. -/
def status (env : Env) : Target → Port → Int
  | .fqdn h, .service p => if env.tcp p = 0 ∧ env.udp p = 0 then -4 else if env.address4 h = 0 ∧ env.address6 h = 0 then -2 else 0
  | _, .service p => if env.tcp p = 0 ∧ env.udp p = 0 then -4 else 0
  | .fqdn h, _ => if env.address4 h = 0 ∧ env.address6 h = 0 then -2 else 0
  | .name h, .none => if env.address4 h = 0 ∧ env.address6 h = 0 ∧ env.tcp h = 0 ∧ env.udp h = 0 then -3 else 0
  | _, _ => 0

/-- What the function returns for an endpoint. -/
def meaning (env : Env) (preference : Kind) : Phrase → Int × Result
  | .path [] => (0, { blank with type := .locale })
  | .path p =>
    match env.path p with
    | some q => (0, { blank with type := .locale, locale := q })
    | none => (-5, blank)
  | .net t p =>
    (status env t p,
      { type := if status env t p = 0 then family env preference t (addresses env t).1 (addresses env t).2 else .unspecified,
        ipv4 := (addresses env t).1, ipv6 := (addresses env t).2, tcp := (ports env t p).1, udp := (ports env t p).2, locale := [] })

/-- The port is representable in an `int`. -/
def PortFits : Phrase → Bool
  | .net _ (.number p) => decide (value p < 2147483648)
  | _ => true

/-- The characters of a string. -/
def chars (s : String) : List Byte := s.toList.map ch

/-- Nothing can be resolved. -/
def lost : Env := { address4 := fun _ => 0, address6 := fun _ => 0, tcp := fun _ => 0, udp := fun _ => 0, path := some, prefer6 := false }

end Diminuto.Endpoint
