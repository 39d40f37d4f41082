import Verif.Internettool
import Verif.NumberSpec

/-!
# Specification: how the tool for the Internet decides what to do

-/

namespace Diminuto.Internettool

/-- The last thing that the options say about something. -/
def latest {α : Type} (says : Opt → Option α) (opts : List Opt) : Option α := (opts.filterMap says).getLast?

/-- What the options say: `-4` and `-6`. -/
def saysFamily : Opt → Option Layer2
  | .four => some .v4
  | .six => some .v6
  | _ => none

/-- `-t`, `-u` and `-g`. -/
def saysProtocol : Opt → Option Layer3
  | .tcp => some .tcp
  | .udp => some .udp
  | .ping => some .ping
  | _ => none

/-- `-e`. -/
def saysNear : Opt → Option (List Byte)
  | .nearendpoint t => some t
  | _ => none

/-- `-E`. -/
def saysFar : Opt → Option (List Byte)
  | .farendpoint t => some t
  | _ => none

/-- `-a`. -/
def saysAddress : Opt → Option (List Byte)
  | .address t => some t
  | _ => none

/-- `-p`. -/
def saysPort : Opt → Option (List Byte)
  | .port t => some t
  | _ => none

/-- `-A`. -/
def saysServer : Opt → Option (List Byte)
  | .server t => some t
  | _ => none

/-- `-P`. -/
def saysRendezvous : Opt → Option (List Byte)
  | .rendezvous t => some t
  | _ => none

/-- `-i`. -/
def saysInterface : Opt → Option (List Byte)
  | .interface t => some t
  | _ => none

/-- `-b`. -/
def saysBlock : Opt → Option (List Byte)
  | .blocksize t => some t
  | _ => none

/-- What an endpoint is. -/
def found (w : World) (t : Option (List Byte)) : Option Endpoint.Result := t.bind fun t => (w.endpoint t).map (·.2)

/-- The family that an endpoint is of, if it is only of one. -/
def familyOf (e : Endpoint.Result) : Option Layer2 :=
  match decide (e.ipv4 = 0), decide (e.ipv6 = 0) with
  | false, true => some .v4
  | true, false => some .v6
  | _, _ => none

/-- The protocol that an endpoint is of, if it is only of one. -/
def protocolOf (e : Endpoint.Result) : Option Layer3 :=
  match decide (e.tcp = 0), decide (e.udp = 0) with
  | false, true => some .tcp
  | true, false => some .udp
  | _, _ => none

/-- The port of an endpoint for a protocol. -/
def portOf (e : Endpoint.Result) : Layer3 → BitVec 16
  | .tcp => e.tcp
  | .udp => e.udp
  | .ping => 0

/-- The port of a service for a protocol. -/
def serviceOf (w : World) (t : List Byte) : Layer3 → BitVec 16
  | .tcp => w.tcp t
  | .udp => w.udp t
  | .ping => 0

/-- The address of an endpoint in a family, as one kind or the other. -/
def addressOf (e : Endpoint.Result) : Layer2 → BitVec 32 ⊕ BitVec 128
  | .v4 => .inl e.ipv4
  | .v6 => .inr e.ipv6

/-- The address of a host in a family. -/
def hostOf (w : World) (t : List Byte) : Layer2 → BitVec 32 ⊕ BitVec 128
  | .v4 => .inl (w.address4 t)
  | .v6 => .inr (w.address6 t)

/-- An address that says nothing. -/
def nowhere : Layer2 → BitVec 32 ⊕ BitVec 128
  | .v4 => .inl 0
  | .v6 => .inr 0

/-- The address of the host itself: 127.0.0.1 or ::1. -/
def loopback : Layer2 → BitVec 32 ⊕ BitVec 128
  | .v4 => .inl (BitVec.ofNat 32 (127 * 2 ^ 24 + 1))
  | .v6 => .inr 1

/-- An endpoint has an address. -/
def Somewhere (e : Endpoint.Result) : Prop := e.ipv4 ≠ 0 ∨ e.ipv6 ≠ 0

/-- The family: that of the far endpoint, or else of the near endpoint, if it is only of one; or else what has been asked for last; or else IPv4. -/
def family (w : World) (opts : List Opt) : Layer2 :=
  (((found w (latest saysFar opts)).bind familyOf).or (((found w (latest saysNear opts)).bind familyOf).or (latest saysFamily opts))).getD .v4

/-- The protocol: that of the far endpoint, or else of the near endpoint, if it is only of one; or else what has been asked for last; or else TCP. -/
def protocol (w : World) (opts : List Opt) : Layer3 :=
  (((found w (latest saysFar opts)).bind protocolOf).or (((found w (latest saysNear opts)).bind protocolOf).or (latest saysProtocol opts))).getD .tcp

/-- The address of the near end that is used. -/
def Parameters.nearAddress (p : Parameters) : BitVec 32 ⊕ BitVec 128 :=
  match p.layer2 with
  | .v4 => .inl p.address4
  | .v6 => .inr p.address6

/-- The address of the far end that is used. -/
def Parameters.farAddress (p : Parameters) : BitVec 32 ⊕ BitVec 128 :=
  match p.layer2 with
  | .v4 => .inl p.server4
  | .v6 => .inr p.server6

/-- A text is a number and nothing else, or empty, with its value as a number of 64 bits: one that is negative counts from 2 to the power of 64 down, and one too large is the largest. -/
def Sized (t : List Byte) (v : Nat) : Prop :=
  (t = [] ∧ v = 0) ∨ ∃ negative n, Number.Reads t negative n [] ∧ v = if n < 2 ^ 64 then (if negative then (2 ^ 64 - n) % 2 ^ 64 else n) else 2 ^ 64 - 1

/-- What the tool is to do has been asked for, but for the ports: they are the subject of `NearPort` and `FarPort`. -/
structure Asked (w : World) (opts : List Opt) (p : Parameters) : Prop where
  family : p.layer2 = family w opts
  protocol : p.layer3 = protocol w opts
  near : p.nearAddress =
    match latest saysAddress opts, found w (latest saysNear opts) with
    | some t, _ => hostOf w t (Internettool.family w opts)
    | none, some e => addressOf e (Internettool.family w opts)
    | none, none => nowhere (Internettool.family w opts)
  far : ∀ t, latest saysServer opts = some t → p.farAddress = hostOf w t (Internettool.family w opts)
  farEndpoint : latest saysServer opts = none → ∀ e, found w (latest saysFar opts) = some e → Somewhere e → p.farAddress = addressOf e (Internettool.family w opts)
  farNone : latest saysServer opts = none → (∀ e, found w (latest saysFar opts) = some e → ¬ Somewhere e) → p.farAddress = loopback (Internettool.family w opts)
  interface : p.interface = latest saysInterface opts
  known : ∀ t, latest saysInterface opts = some t → ∃ names, w.interfaces = some names ∧ t ∈ names
  block : match latest saysBlock opts with
    | none => p.blocksize = 512
    | some t => Sized t p.blocksize.toNat

/-- The port of the near end is that of the service asked for, or else of the near endpoint, for the protocol. -/
def NearPort (w : World) (opts : List Opt) (p : Parameters) : Prop :=
  p.port =
    match latest saysPort opts, found w (latest saysNear opts) with
    | some t, _ => serviceOf w t (protocol w opts)
    | none, some e => portOf e (protocol w opts)
    | none, none => 0

/-- The port of the far end is that of the service asked for, or else of the far endpoint, for the protocol. -/
def FarPort (w : World) (opts : List Opt) (p : Parameters) : Prop :=
  p.rendezvous =
    match latest saysRendezvous opts, found w (latest saysFar opts) with
    | some t, _ => serviceOf w t (protocol w opts)
    | none, some e => portOf e (protocol w opts)
    | none, none => 0

end Diminuto.Internettool
