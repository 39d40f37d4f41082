import Verif.Wagon
import Verif.InternettoolSpec

/-!
# Specification: the options and the preparations of the tool that passes datagrams over a serial line
-/

namespace Diminuto.Wagon

open Conestoga (Role Peer)

/-- The last thing that the options say about something. -/
def latest {α : Type} (says : Opt → Option α) (opts : List Opt) : Option α := (opts.filterMap says).getLast?

/-- `-1` and `-2`. -/
def saysStop : Opt → Option Int
  | .one => some 1
  | .two => some 2
  | _ => none

/-- `-7` and `-8`. -/
def saysData : Opt → Option Int
  | .seven => some 7
  | .eight => some 8
  | _ => none

/-- `-n`, `-o` and `-e`, as `diminuto_serial_set` has them. -/
def saysParity : Opt → Option Int
  | .parityless => some 0
  | .odd => some 1
  | .even => some 2
  | _ => none

/-- `-4` and `-6`. -/
def saysFamily : Opt → Option Endpoint.Kind
  | .four => some .ipv4
  | .six => some .ipv6
  | _ => none

/-- `-c` and `-s`. -/
def saysRole : Opt → Option Role
  | .client => some .client
  | .server => some .server
  | _ => none

/-- `-B`. -/
def saysRate : Opt → Option (List Byte)
  | .rate t => some t
  | _ => none

/-- `-D`. -/
def saysDevice : Opt → Option (List Byte)
  | .device t => some t
  | _ => none

/-- `-E`. -/
def saysEndpoint : Opt → Option (List Byte)
  | .endpoint t => some t
  | _ => none

/-- `-b`. -/
def saysSize : Opt → Option (List Byte)
  | .size t => some t
  | _ => none

/-- `-t`. -/
def saysTimeout : Opt → Option (List Byte)
  | .timeout t => some t
  | _ => none

/-- The role. -/
def roleOf (opts : List Opt) : Role := (latest saysRole opts).getD .client

/-- The preference. -/
def familyOf (opts : List Opt) : Endpoint.Kind := (latest saysFamily opts).getD .unspecified

/-- A text is a number and nothing else, with this value; see `Internettool.Sized`. -/
abbrev Means (t : List Byte) (v : Nat) : Prop := Internettool.Sized t v

/-- An endpoint for the Internet with a port that suits a role: a client needs an address, of the family of the endpoint, and a server none. -/
def Suits (e : Endpoint.Result) : Role → Prop
  | .client => e.udp ≠ 0 ∧ ((e.type = .ipv4 ∧ e.ipv4 ≠ 0) ∨ (e.type = .ipv6 ∧ e.ipv6 ≠ 0))
  | .server => e.udp ≠ 0 ∧ (e.type = .ipv4 ∨ e.type = .ipv6) ∧ e.ipv4 = 0 ∧ e.ipv6 = 0

/-- An option is accepted after other ones. -/
def Accepted (w : World) (before : List Opt) : Opt → Prop
  | .rate t => ∃ v, Means t v ∧ 0 < v % 2 ^ 32 ∧ v % 2 ^ 32 < 2 ^ 31
  | .device t => t = [45] ∨ w.there t = true
  | .endpoint t => ∃ rc e, w.endpoint t (familyOf before) = some (rc, e) ∧ 0 ≤ rc ∧ Suits e (roleOf before)
  | .size t => ∃ v, Means t v ∧ 0 < v
  | .daemon => w.daemon (before.filter (· = .daemon)).length = true
  | .timeout t => ∃ v, Means t v
  | _ => True

/-- All options are accepted, each of them after the ones before it. -/
def AllAccepted (w : World) (opts : List Opt) : Prop := ∀ before o after, opts = before ++ o :: after → Accepted w before o

/-- An option is undefined after other ones: its endpoint is, or its time out, as a signed number of 64 bits, is too far from zero for its nanoseconds. -/
def Undefined (w : World) (before : List Opt) : Opt → Prop
  | .endpoint t => w.endpoint t (familyOf before) = none
  | .timeout t => ∃ v, Means t v ∧ 9223372036854 < v ∧ v < 2 ^ 64 - 9223372036854
  | _ => False

/-- The variables are as the options say. -/
structure Follows (w : World) (opts : List Opt) (c : Config) : Prop where
  stop : c.stopbits = (latest saysStop opts).getD 1
  data : c.databits = (latest saysData opts).getD 8
  parity : c.paritybit = (latest saysParity opts).getD 0
  modem : c.modemcontrol = true ↔ Opt.modem ∈ opts
  hardware : c.rtscts = true ↔ Opt.hardware ∈ opts
  software : c.xonxoff = true ↔ Opt.software ∈ opts
  role : c.role = roleOf opts
  preference : c.preference = familyOf opts
  device : c.device = (latest saysDevice opts).getD [45]
  daemons : c.daemons = (opts.filter (· = .daemon)).length

/-- The variables that are not as the options say if one of them is not accepted. -/
structure Heeds (w : World) (opts : List Opt) (c : Config) : Prop where
  rateNone : latest saysRate opts = none → c.baudrate = 57600
  rate : ∀ t, latest saysRate opts = some t → ∃ v, Means t v ∧ c.baudrate = ((v % 2 ^ 32 : Nat) : Int) ∧ 0 < c.baudrate ∧ c.baudrate < 2 ^ 31
  sizeNone : latest saysSize opts = none → c.bufsize = 65527
  size : ∀ t, latest saysSize opts = some t → ∃ v, Means t v ∧ 0 < v ∧ c.bufsize = min v 65527
  timeoutNone : latest saysTimeout opts = none → c.timeout.toNat = 1000000000
  timeout : ∀ t, latest saysTimeout opts = some t → ∃ v, Means t v ∧
    ((v ≤ 9223372036854 ∧ c.timeout.toNat = v * 1000000) ∨ (2 ^ 64 - 9223372036854 ≤ v ∧ c.timeout.toNat = 2 ^ 64 - (2 ^ 64 - v) * 1000000))
  endpointNone : latest saysEndpoint opts = none → c.endpoint.type = .unspecified
  endpoint : ∀ t, latest saysEndpoint opts = some t → ∃ before after rc, opts = before ++ .endpoint t :: after ∧ latest saysEndpoint after = none ∧
    w.endpoint t (familyOf before) = some (rc, c.endpoint) ∧ 0 ≤ rc ∧ Suits c.endpoint (roleOf before)

/-- What is done to the line: nothing for the standard streams; otherwise it is opened, and if it is a terminal it is set and then made raw. -/
inductive Lines (w : World) (c : Config) : List Call → Prop where
  | standard : c.device = [45] → Lines w c []
  | file {fd : Nat} : c.device ≠ [45] → w.opens c.device = some fd → w.terminal fd = false → Lines w c [.open c.device]
  | terminal {fd : Nat} : c.device ≠ [45] → w.opens c.device = some fd → w.terminal fd = true →
      Lines w c [.open c.device, .set fd c.baudrate c.databits c.paritybit c.stopbits c.modemcontrol c.xonxoff c.rtscts, .raw fd]

/-- Nothing fails that is done to the line. -/
def LineReady (w : World) (c : Config) : Prop :=
  c.device = [45] ∨ ∃ fd, w.opens c.device = some fd ∧ w.stream = true ∧ (w.terminal fd = true → w.set = true ∧ w.raw = true)

/-- The socket that is made: for a client at any port, for a server at the port of the endpoint, and of its family. -/
def Sockets (c : Config) (k : Call) : Prop :=
  k = (match c.endpoint.type, c.role with
    | .ipv4, .client => .peer4 0
    | .ipv4, .server => .peer4 c.endpoint.udp
    | _, .client => .peer6 0
    | _, .server => .peer6 c.endpoint.udp)

/-- The stages of the preparations, each with the status of the program if it fails, and if it succeeds. -/
def stages (w : World) (opts : List Opt) (c : Config) : List (Nat × Prop) :=
  [(2, AllAccepted w opts), (3, w.hangup = true ∧ w.terminator = true), (4, LineReady w c), (5, c.endpoint.type = .ipv4 ∨ c.endpoint.type = .ipv6),
    (6, ∀ k, Sockets c k → w.socket k = true), (7, w.registerLine = true ∧ w.registerSocket = true), (8, w.frame = true ∧ w.datagram = true)]

/-- The status of the first stage that fails, if one does. -/
inductive First : List (Nat × Prop) → Option Nat → Prop where
  | none : First [] none
  | fails {n : Nat} {P : Prop} {r : List (Nat × Prop)} : ¬ P → First ((n, P) :: r) (some n)
  | passes {n : Nat} {P : Prop} {r : List (Nat × Prop)} {x : Option Nat} : P → First r x → First ((n, P) :: r) x

/-- The status with which the program exits. -/
def Deed.status : Deed → Option Nat
  | .exits n => some n
  | _ => none

/-- All of `-4`, `-6`, `-c` and `-s` are before all of `-E`, as the menu asks for. -/
def Ordered (opts : List Opt) : Prop := ∀ before t after, opts = before ++ .endpoint t :: after → latest saysRole after = none ∧ latest saysFamily after = none

end Diminuto.Wagon
