import Verif.Endpoint
import Verif.Number

/-!
# Model of how the tool for the Internet decides what to do

`Diminuto/bin/internettool.c`, up to the call that opens the socket.  The functions that look up endpoints, addresses, ports and interfaces are arbitrary functions.  A contract that is violated and a panic end the program; messages in the log are left out.  `getopt(3)` is left out: the
options come with their arguments.
-/

namespace Diminuto.Internettool

/-- An option with its argument, `Diminuto/bin/internettool.c:205-273`; the last one is `-?` and anything that `getopt(3)` refuses. -/
inductive Opt where
  | four
  | six
  | server (text : List Byte)
  | farendpoint (text : List Byte)
  | interfaces
  | rendezvous (text : List Byte)
  | address (text : List Byte)
  | blocksize (text : List Byte)
  | debug
  | nearendpoint (text : List Byte)
  | interface (text : List Byte)
  | port (text : List Byte)
  | ping
  | tcp
  | udp
  | verbose
  | exit
  | menu
deriving DecidableEq

/-- `Layer2`, `Diminuto/bin/internettool.c:133`. -/
inductive Layer2 where
  | v4 | v6
deriving DecidableEq

/-- `Layer3`, `Diminuto/bin/internettool.c:134`. -/
inductive Layer3 where
  | tcp | udp | ping
deriving DecidableEq

/-- The variables that the options set, `Diminuto/bin/internettool.c:125-138`. -/
structure Config where
  interface : Option (List Byte)
  nearendpoint : Option (List Byte)
  address : Option (List Byte)
  port : Option (List Byte)
  farendpoint : Option (List Byte)
  server : Option (List Byte)
  rendezvous : Option (List Byte)
  blocksize : Option (List Byte)
  layer2 : Layer2
  layer3 : Layer3
  debug : Bool
  verbose : Bool
  interfaces : Bool
  exit : Bool
deriving DecidableEq

/-- Their initial values, `Diminuto/bin/internettool.c:125-138`. -/
def Config.start : Config := ⟨none, none, none, none, none, none, none, none, .v4, .tcp, false, false, false, false⟩

/-- The switch, `Diminuto/bin/internettool.c:206-277`; nothing is for the menu. -/
def option (c : Config) : Opt → Option Config
  | .four => some { c with layer2 := .v4 }
  | .six => some { c with layer2 := .v6 }
  | .server t => some { c with server := some t }
  | .farendpoint t => some { c with farendpoint := some t }
  | .interfaces => some { c with interfaces := true }
  | .rendezvous t => some { c with rendezvous := some t }
  | .address t => some { c with address := some t }
  | .blocksize t => some { c with blocksize := some t }
  | .debug => some { c with debug := true }
  | .nearendpoint t => some { c with nearendpoint := some t }
  | .interface t => some { c with interface := some t }
  | .port t => some { c with port := some t }
  | .ping => some { c with layer3 := .ping }
  | .tcp => some { c with layer3 := .tcp }
  | .udp => some { c with layer3 := .udp }
  | .verbose => some { c with verbose := true }
  | .exit => some { c with exit := true }
  | .menu => none

/-- The loop over the options, `Diminuto/bin/internettool.c:205-278`. -/
def options (c : Config) : List Opt → Option Config
  | [] => some c
  | o :: r => (option c o).bind fun c => options c r

/-- What surrounds the program: `diminuto_ipc_endpoint`, which may be undefined, with its result and the structure, `Diminuto/bin/internettool.c:340`; `diminuto_ipc4_address` and `diminuto_ipc6_address`, `:492-495`; `diminuto_ipc_port` for a service of TCP and of UDP,
`:513-515`; the names that `diminuto_ipc_interfaces` returns, if it does, `:562`; and whether `diminuto_ipc4_interface` and `diminuto_ipc6_interface` return a list, `:572-579`. -/
structure World where
  endpoint : List Byte → Endpoint.Outcome
  address4 : List Byte → BitVec 32
  address6 : List Byte → BitVec 128
  tcp : List Byte → BitVec 16
  udp : List Byte → BitVec 16
  interfaces : Option (List (List Byte))
  bound : Layer2 → List Byte → Bool

/-- The parameters, `Diminuto/bin/internettool.c:139-164`, with the interface as it has been given. -/
structure Parameters where
  layer2 : Layer2
  layer3 : Layer3
  address4 : BitVec 32
  address6 : BitVec 128
  port : BitVec 16
  server4 : BitVec 32
  server6 : BitVec 128
  rendezvous : BitVec 16
  interface : Option (List Byte)
  blocksize : BitVec 64
deriving DecidableEq

/-- Their initial values, `Diminuto/bin/internettool.c:133-164`, with what the options say: the addresses of the far end are those of the loopback. -/
def Parameters.start (c : Config) : Parameters :=
  { layer2 := c.layer2, layer3 := c.layer3, address4 := 0, address6 := 0, port := 0, server4 := 0x7f000001, server6 := 1, rendezvous := 0, interface := c.interface, blocksize := 512 }

/-- Which port of an endpoint is taken, if any, and the protocol then, `Diminuto/bin/internettool.c:344-360`, `:385-401`, `:410-426` and `:451-467`, which are the same. -/
def pick (e : Endpoint.Result) (l : Layer3) (port : BitVec 16) : Layer3 × BitVec 16 :=
  if e.tcp ≠ 0 ∧ e.udp ≠ 0 then
    match l with
    | .tcp => (l, e.tcp)
    | .udp => (l, e.udp)
    | .ping => (l, port)
  else if e.tcp ≠ 0 then (.tcp, e.tcp)
  else if e.udp ≠ 0 then (.udp, e.udp)
  else (l, port)

/-- Which addresses of an endpoint are taken, and the family then, `Diminuto/bin/internettool.c:362-384` and `:428-450`; with neither of them, `:342` and `:408`, those there are stay. -/
def place (e : Endpoint.Result) (l : Layer2) (a4 : BitVec 32) (a6 : BitVec 128) : Layer2 × BitVec 32 × BitVec 128 :=
  if e.ipv4 = 0 ∧ e.ipv6 = 0 then (l, a4, a6)
  else if e.ipv4 ≠ 0 ∧ e.ipv6 ≠ 0 then (l, e.ipv4, e.ipv6)
  else if e.ipv4 ≠ 0 then (.v4, e.ipv4, 0)
  else (.v6, 0, e.ipv6)

/-- What the program does: it prints the menu and ends; it lists the interfaces and ends; it panics; it prints its parameters and ends; it does what it is for with them; or its behaviour is undefined. -/
inductive Deed where
  | menu
  | lists
  | panics
  | prints (p : Parameters)
  | works (p : Parameters)
  | undefined
deriving DecidableEq

/-- The near endpoint, `Diminuto/bin/internettool.c:338-402`. -/
def near (w : World) (c : Config) (p : Parameters) : Except Deed Parameters :=
  match c.nearendpoint with
  | none => .ok p
  | some t =>
    match w.endpoint t with
    | none => .error .undefined
    | some (rc, e) =>
      if rc < 0 then .error .panics
      else
        let a := place e p.layer2 p.address4 p.address6
        let q := pick e p.layer3 p.port
        .ok { p with layer2 := a.1, address4 := a.2.1, address6 := a.2.2, layer3 := q.1, port := q.2 }

/-- The far endpoint, `Diminuto/bin/internettool.c:404-468`. -/
def far (w : World) (c : Config) (p : Parameters) : Except Deed Parameters :=
  match c.farendpoint with
  | none => .ok p
  | some t =>
    match w.endpoint t with
    | none => .error .undefined
    | some (rc, e) =>
      if rc < 0 then .error .panics
      else
        let a := place e p.layer2 p.server4 p.server6
        let q := pick e p.layer3 p.rendezvous
        .ok { p with layer2 := a.1, server4 := a.2.1, server6 := a.2.2, layer3 := q.1, rendezvous := q.2 }

/-- The addresses and ports, `Diminuto/bin/internettool.c:488-552`; the port of the far end is always looked up as one of TCP, `:551`. -/
def details (w : World) (c : Config) (p : Parameters) : Parameters :=
  let p :=
    match c.address, p.layer2 with
    | none, _ => p
    | some t, .v4 => { p with address4 := w.address4 t }
    | some t, .v6 => { p with address6 := w.address6 t }
  let p :=
    match c.port, p.layer3 with
    | none, _ => p
    | some t, .tcp => { p with port := w.tcp t }
    | some t, .udp => { p with port := w.udp t }
    | some _, .ping => p
  let p :=
    match c.server, p.layer2 with
    | none, _ => p
    | some t, .v4 => { p with server4 := w.address4 t, server6 := 0 }
    | some t, .v6 => { p with server4 := 0, server6 := w.address6 t }
  match c.rendezvous with
  | none => p
  | some t => { p with rendezvous := w.tcp t }

/-- The interface, `Diminuto/bin/internettool.c:558-587`: whether the contracts hold. -/
def check (w : World) (c : Config) (l : Layer2) : Bool :=
  match c.interface with
  | none => true
  | some t =>
    match w.interfaces with
    | none => false
    | some names => decide (t ∈ names) && w.bound l t

/-- The size of the block, `Diminuto/bin/internettool.c:589-596`; nothing for a panic. -/
def block (c : Config) : Option (BitVec 64) :=
  match c.blocksize with
  | none => some 512
  | some t => if (Number.unsigned t).2.1 ≠ [] then none else some (BitVec.ofNat 64 (Number.unsigned t).1)

/-- `main`, `Diminuto/bin/internettool.c:197-641`, with whether `malloc(3)` succeeds. -/
def main (w : World) (opts : List Opt) (memory : Bool) : Deed :=
  match options Config.start opts with
  | none => .menu
  | some c =>
    if c.interfaces then .lists
    else
      match near w c (Parameters.start c) with
      | .error d => d
      | .ok p =>
        match far w c p with
        | .error d => d
        | .ok p =>
          let p := details w c p
          if ¬ check w c p.layer2 then .panics
          else
            match block c with
            | none => .panics
            | some n =>
              let p := { p with blocksize := n }
              if c.exit then .prints p
              else if ¬ memory then .panics
              else .works p

/-- The call that opens the socket. -/
inductive Opening where
  | provide4 (address : BitVec 32) (port : BitVec 16) (interface : Option (List Byte))
  | provide6 (address : BitVec 128) (port : BitVec 16) (interface : Option (List Byte))
  | peer4 (address : BitVec 32) (port : BitVec 16) (interface : Option (List Byte)) (consumes : Option (BitVec 32 × BitVec 16))
  | peer6 (address : BitVec 128) (port : BitVec 16) (interface : Option (List Byte)) (consumes : Option (BitVec 128 × BitVec 16))
  | consume4 (server : BitVec 32) (rendezvous : BitVec 16) (address : BitVec 32) (port : BitVec 16) (interface : Option (List Byte))
  | consume6 (server : BitVec 128) (rendezvous : BitVec 16) (address : BitVec 128) (port : BitVec 16) (interface : Option (List Byte))
  | ping4 (address : BitVec 32) (port : BitVec 16) (server : BitVec 32)
  | ping6 (address : BitVec 128) (port : BitVec 16) (server : BitVec 128)
  | undefined
deriving DecidableEq

/-- What is opened, `Diminuto/bin/internettool.c:643-805`; with the peer that is sent to, `:1069` and `:1128`, for the sockets that are not connected, and with the one that requests are sent to, `:1156` and `:1186`.  For a ping the interface is taken from the list of the names
of the interfaces, `:567`, which has been freed, `:586`, with the names in it, `Diminuto/src/diminuto_ipc.c:323-325`: to read it, `Diminuto/bin/internettool.c:771` and `:789`, is undefined behaviour. -/
def opening (p : Parameters) : Opening :=
  match p.layer3, p.layer2 with
  | .tcp, .v4 => if p.rendezvous = 0 then .provide4 p.address4 p.port p.interface else .consume4 p.server4 p.rendezvous p.address4 p.port p.interface
  | .tcp, .v6 => if p.rendezvous = 0 then .provide6 p.address6 p.port p.interface else .consume6 p.server6 p.rendezvous p.address6 p.port p.interface
  | .udp, .v4 => .peer4 p.address4 p.port p.interface (if p.rendezvous = 0 then none else some (p.server4, p.rendezvous))
  | .udp, .v6 => .peer6 p.address6 p.port p.interface (if p.rendezvous = 0 then none else some (p.server6, p.rendezvous))
  | .ping, .v4 => if p.interface = none then .ping4 p.address4 p.port p.server4 else .undefined
  | .ping, .v6 => if p.interface = none then .ping6 p.address6 p.port p.server6 else .undefined

end Diminuto.Internettool
