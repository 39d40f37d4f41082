import Verif.Conestoga
import Verif.Endpoint
import Verif.Number
import Verif.Time

/-!
# Model of the options and of the preparations of the tool that passes datagrams over a serial line

Models `Diminuto/bin/conestoga.c` up to its work loop, `:53-432`, which is in `Conestoga.lean`.  `getopt(3)` is left out: the options come with their arguments.  The functions of the system, and the one that looks up endpoints, are arbitrary functions.
Messages in the log and its mask are left out.
-/

namespace Diminuto.Wagon

open Conestoga (Role Peer)

/-- The options with their arguments, `Diminuto/bin/conestoga.c:120`: `-1`, `-2`, `-4`, `-6`, `-7`, `-8`, `-B`, `-D`, `-E`, `-b`, `-c`, `-d`, `-e`, `-h`, `-m`, `-n`, `-o`, `-r`, `-s`, `-t`, `-x`; and `-?`, or anything that `getopt(3)` refuses. -/
inductive Opt where
  | one | two
  | four | six
  | seven | eight
  | rate (text : List Byte)
  | device (text : List Byte)
  | endpoint (text : List Byte)
  | size (text : List Byte)
  | client
  | daemon
  | even
  | hidden
  | modem
  | parityless
  | odd
  | hardware
  | server
  | timeout (text : List Byte)
  | software
  | menu
deriving DecidableEq

/-- A call whose arguments matter. -/
inductive Call where
  | «open» (path : List Byte)
  | set (fd : Nat) (rate data parity stop : Int) (modem xonxoff rtscts : Bool)
  | raw (fd : Nat)
  | peer4 (port : BitVec 16)
  | peer6 (port : BitVec 16)
deriving DecidableEq

/-- What surrounds the program: if there is an object with a path (`diminuto_fs_type`); `diminuto_ipc_endpoint_prefer`, which may be undefined; if each of the calls of `diminuto_daemon` succeeds; if the handlers are installed; the descriptor that `open(2)` returns for the device;
if `fdopen(3)` succeeds; if a descriptor is a terminal; if the calls succeed that set the line and make it raw; if the socket is made; if its descriptor and that of the line are registered; and the two allocations. -/
structure World where
  there : List Byte → Bool
  endpoint : List Byte → Endpoint.Kind → Endpoint.Outcome
  daemon : Nat → Bool
  hangup : Bool
  terminator : Bool
  opens : List Byte → Option Nat
  stream : Bool
  terminal : Nat → Bool
  set : Bool
  raw : Bool
  socket : Call → Bool
  registerLine : Bool
  registerSocket : Bool
  frame : Bool
  datagram : Bool

/-- The variables of `main`, `Diminuto/bin/conestoga.c:60-100`; and how often `diminuto_daemon` has been called. -/
structure Config where
  device : List Byte
  baudrate : Int
  stopbits : Int
  databits : Int
  paritybit : Int
  modemcontrol : Bool
  rtscts : Bool
  xonxoff : Bool
  role : Role
  preference : Endpoint.Kind
  bufsize : Nat
  timeout : BitVec 64
  endpoint : Endpoint.Result
  error : Bool
  daemons : Nat

/-- `MAXDATAGRAM`, `Diminuto/bin/conestoga.c:44`. -/
def MAXDATAGRAM : Nat := 65535 - 8

/-- Their values at the beginning, `Diminuto/bin/conestoga.c:60-100`: the device is `-`. -/
def Config.start : Config where
  device := [45]
  baudrate := 57600
  stopbits := 1
  databits := 8
  paritybit := 0
  modemcontrol := false
  rtscts := false
  xonxoff := false
  role := .client
  preference := .unspecified
  bufsize := MAXDATAGRAM
  timeout := 1000000000
  endpoint := Endpoint.blank
  error := false
  daemons := 0

/-- What comes of an option: the variables; the menu, after which the program exits; or undefined behaviour. -/
inductive Step where
  | ok (c : Config)
  | menu
  | undefined

/-- The checks of an endpoint, `Diminuto/bin/conestoga.c:168-185`: if there is an error. -/
def refuses (role : Role) (rc : Int) (e : Endpoint.Result) : Bool :=
  if rc < 0 then true
  else if e.type ≠ .ipv4 ∧ e.type ≠ .ipv6 then true
  else if role = .client ∧ (e.udp = 0 ∨ (e.type = .ipv4 ∧ e.ipv4 = 0) ∨ (e.type = .ipv6 ∧ e.ipv6 = 0)) then true
  else if role = .server ∧ (e.udp = 0 ∨ e.ipv4 ≠ 0 ∨ e.ipv6 ≠ 0) then true
  else false

/-- The switch, `Diminuto/bin/conestoga.c:122-276`.  The rate is an `int`, `:149`.  For the time out, `:236-245`, the milliseconds are converted to a signed number of 64 bits, whose product may overflow.  `-h` has no case. -/
def option (w : World) (c : Config) : Opt → Step
  | .one => .ok { c with stopbits := 1 }
  | .two => .ok { c with stopbits := 2 }
  | .four => .ok { c with preference := .ipv4 }
  | .six => .ok { c with preference := .ipv6 }
  | .seven => .ok { c with databits := 7 }
  | .eight => .ok { c with databits := 8 }
  | .rate t =>
    let baudrate := (BitVec.ofNat 32 (Number.strtoull t).1).toInt
    .ok { c with baudrate := baudrate, error := c.error || decide (baudrate ≤ 0 ∨ (Number.strtoull t).2.1 ≠ []) }
  | .device t => .ok { c with device := t, error := c.error || (decide (t ≠ [45]) && !w.there t) }
  | .endpoint t =>
    match w.endpoint t c.preference with
    | none => .undefined
    | some (rc, e) => .ok { c with endpoint := e, error := c.error || refuses c.role rc e }
  | .size t =>
    let bufsize := (Number.strtoull t).1
    if bufsize ≤ 0 ∨ (Number.strtoull t).2.1 ≠ [] then .ok { c with bufsize := bufsize, error := true }
    else .ok { c with bufsize := if bufsize > MAXDATAGRAM then MAXDATAGRAM else bufsize }
  | .client => .ok { c with role := .client }
  | .daemon => .ok { c with daemons := c.daemons + 1, error := c.error || !w.daemon c.daemons }
  | .even => .ok { c with paritybit := 2 }
  | .hidden => .ok c
  | .modem => .ok { c with modemcontrol := true }
  | .parityless => .ok { c with paritybit := 0 }
  | .odd => .ok { c with paritybit := 1 }
  | .hardware => .ok { c with rtscts := true }
  | .server => .ok { c with role := .server }
  | .timeout t =>
    if (Number.strtoull t).2.1 ≠ [] then .ok { c with error := true }
    else
      match Time.units2ticks (BitVec.ofNat 64 (Number.strtoull t).1).toInt 1000 with
      | none => .undefined
      | some v => .ok { c with timeout := BitVec.ofInt 64 v }
  | .software => .ok { c with xonxoff := true }
  | .menu => .menu

/-- The loop over the options, `Diminuto/bin/conestoga.c:120-278`. -/
def options (w : World) (c : Config) : List Opt → Step
  | [] => .ok c
  | o :: r =>
    match option w c o with
    | .ok c => options w c r
    | x => x

/-- What the work loop begins with: what `Conestoga.lean` has as its configuration, if the socket is one of IPv4, and the time out. -/
structure Work where
  config : Conestoga.Config
  ipv4 : Bool
  timeout : BitVec 64

/-- What the program does: it exits, it comes to its work loop, or its behaviour is undefined. -/
inductive Deed where
  | exits (status : Nat)
  | works (k : Work)
  | undefined

/-- The device, `Diminuto/bin/conestoga.c:310-330`: the calls, and if there is no error. -/
def line (w : World) (c : Config) : List Call × Bool :=
  if c.device = [45] then ([], true)
  else
    match w.opens c.device with
    | none => ([.open c.device], false)
    | some fd =>
      if w.stream = false then ([.open c.device], false)
      else if w.terminal fd = false then ([.open c.device], true)
      else
        let set := Call.set fd c.baudrate c.databits c.paritybit c.stopbits c.modemcontrol c.xonxoff c.rtscts
        if w.set = false then ([.open c.device, set], false)
        else ([.open c.device, set, .raw fd], w.raw)

/-- The socket, `Diminuto/bin/conestoga.c:346-375`. -/
def socket (c : Config) : Call :=
  match c.role with
  | .client => if c.endpoint.type = .ipv4 then .peer4 0 else .peer6 0
  | .server => if c.endpoint.type = .ipv4 then .peer4 c.endpoint.udp else .peer6 c.endpoint.udp

/-- The service, `service4`, `service6` and `serviceport`, `Diminuto/bin/conestoga.c:82-84` and `:346-361`; the addresses of both families are numbers. -/
def service (c : Config) : Peer :=
  match c.role with
  | .client => ⟨if c.endpoint.type = .ipv4 then c.endpoint.ipv4.setWidth 128 else c.endpoint.ipv6, c.endpoint.udp⟩
  | .server => ⟨0, 0⟩

/-- The preparations, `Diminuto/bin/conestoga.c:280-432`. -/
def prepare (w : World) (c : Config) : List Call × Deed :=
  if c.error then ([], .exits 2)
  else if w.hangup = false ∨ w.terminator = false then ([], .exits 3)
  else
    let l := line w c
    if l.2 = false then (l.1, .exits 4)
    else if c.endpoint.type ≠ .ipv4 ∧ c.endpoint.type ≠ .ipv6 then (l.1, .exits 5)
    else
      let calls := l.1 ++ [socket c]
      if w.socket (socket c) = false then (calls, .exits 6)
      else if w.registerLine = false ∨ w.registerSocket = false then (calls, .exits 7)
      else if w.frame = false ∨ w.datagram = false then (calls, .exits 8)
      else (calls, .works { config := { role := c.role, service := service c, size := c.bufsize, shared := decide (c.device ≠ [45]) },
                            ipv4 := decide (c.endpoint.type = .ipv4), timeout := c.timeout })

/-- `main` up to the work loop. -/
def main (w : World) (opts : List Opt) : List Call × Deed :=
  match options w Config.start opts with
  | .ok c => prepare w c
  | .menu => ([], .exits 1)
  | .undefined => ([], .undefined)

end Diminuto.Wagon
