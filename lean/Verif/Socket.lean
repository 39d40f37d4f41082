import Verif.Ipcl

/-!
# Model of the functions that make sockets

`diminuto_ipc4_stream_provider_base` and the like: `Diminuto/src/diminuto_ipc4.c:288-406`, `Diminuto/src/diminuto_ipc6.c:425-559`,
`Diminuto/src/diminuto_ipcl.c:171-343`, `:401-461` and `Diminuto/src/diminuto_ipc.c:191-214`.  The system calls are arbitrary functions of a state.  Addresses are numbers: that
the conversions between byte orders are right is in `Verif/AddressProps.lean`.  `errno` and log messages are left out, except that `EPERM` is told from other errors.
-/

namespace Diminuto.Socket

/-- `AF_INET`, `AF_INET6` and `AF_UNIX`. -/
inductive Domain where
  | inet | inet6 | unix
deriving DecidableEq

/-- `SOCK_STREAM`, `SOCK_DGRAM` and `SOCK_SEQPACKET`. -/
inductive Style where
  | stream | dgram | seqpacket
deriving DecidableEq

/-- `struct sockaddr_in`, `struct sockaddr_in6` and `struct sockaddr_un` (the bytes of `sun_path`). -/
inductive Addr where
  | inet (address : BitVec 32) (port : BitVec 16)
  | inet6 (address : BitVec 128) (port : BitVec 16)
  | unix (sun : List Byte)
deriving DecidableEq

/-- What `setsockopt(2)` does: success, `EPERM` or another error, `Diminuto/src/diminuto_ipc.c:202-210`. -/
inductive Answer where
  | ok | perm | other
deriving DecidableEq

/-- The system calls that are used.  The interface is the string in `ifr_name`, or empty if the length is zero. -/
structure World (σ : Type) where
  socket : Domain → Style → σ → Int × σ
  bind : Int → Addr → σ → Int × σ
  device : Int → List Byte → σ → Answer × σ
  listen : Int → Int → σ → Int × σ
  connect : Int → Addr → σ → Int × σ
  close : Int → σ → σ

/-- `diminuto_maximumof(int)`, `Diminuto/src/diminuto_ipc4.c:323`. -/
def INTMAX : Int := 2147483647

/-- `SOMAXCONN`, `Diminuto/src/diminuto_ipc6.c:457`. -/
def SOMAXCONN : Int := 4096

/-- `sizeof(intf.ifr_name)`, `Diminuto/src/diminuto_ipc.c:198`. -/
def IFNAMSIZ : Nat := 16

section
variable {σ : Type} (w : World σ)

/-- `(functionp != 0) && ((rc = (*functionp)(fd, datap)) < 0)`; without a function the condition is false, as it is for the value of `rc` then, which is the descriptor:
`Diminuto/src/diminuto_ipc4.c:317` and the like. -/
def inject (functionp : Option (Int → σ → Int × σ)) (fd : Int) (s : σ) : Int × σ :=
  match functionp with
  | none => (fd, s)
  | some f => f fd s

/-- `diminuto_ipc_set_interface`, `Diminuto/src/diminuto_ipc.c:191-214`. -/
def setInterface (fd : Int) (interface : Option (List Byte)) (s : σ) : Int × σ :=
  match interface with
  | none => (fd, s)
  | some name =>
    match w.device fd (name.take (IFNAMSIZ - 1)) s with
    | (.ok, s) => (fd, s)
    | (.perm, s) => (-4, s)
    | (.other, s) => (-5, s)

/-- `diminuto_ipc4_source`, `Diminuto/src/diminuto_ipc4.c:288-304`. -/
def source4 (fd : Int) (address : BitVec 32) (port : BitVec 16) (s : σ) : Int × σ :=
  w.bind fd (.inet (if address = 0 then 0 else address) port) s

/-- `diminuto_ipc6_source`, `Diminuto/src/diminuto_ipc6.c:425-446`. -/
def source6 (fd : Int) (address : BitVec 128) (port : BitVec 16) (s : σ) : Int × σ :=
  w.bind fd (.inet6 (if address = 0 then 0 else address) port) s

/-- `diminuto_ipcl_source`, `Diminuto/src/diminuto_ipcl.c:171-208`. -/
def sourcel (fd : Int) (path : Option (List Byte)) (s : σ) : Int × σ :=
  match Ipcl.source fd path with
  | .inl rc => (rc, s)
  | .inr sun => w.bind fd (.unix sun) s

/-- `diminuto_ipc4_stream_provider_base`, `Diminuto/src/diminuto_ipc4.c:310-333`. -/
def provider4 (address : BitVec 32) (port : BitVec 16) (interface : Option (List Byte)) (backlog : Int) (functionp : Option (Int → σ → Int × σ)) (s : σ) : Int × σ :=
  let (fd, s) := w.socket .inet .stream s
  if fd < 0 then (fd, s)
  else
    let (rc, s) := inject functionp fd s
    if rc < 0 then (rc, w.close fd s)
    else
      let (rc, s) := source4 w fd address port s
      if rc < 0 then (rc, w.close fd s)
      else
        let (rc, s) := setInterface w fd interface s
        if rc < 0 then (rc, w.close fd s)
        else
          let (rc, s) := w.listen fd (if backlog < 0 then INTMAX else backlog) s
          if rc < 0 then (rc, w.close fd s)
          else (fd, s)

/-- `diminuto_ipc4_stream_consumer_base`, `Diminuto/src/diminuto_ipc4.c:351-381`. -/
def consumer4 (address : BitVec 32) (port : BitVec 16) (address0 : BitVec 32) (port0 : BitVec 16) (interface : Option (List Byte))
    (functionp : Option (Int → σ → Int × σ)) (s : σ) : Int × σ :=
  let (fd, s) := w.socket .inet .stream s
  if fd < 0 then (fd, s)
  else
    let (rc, s) := inject functionp fd s
    if rc < 0 then (rc, w.close fd s)
    else
      let (rc, s) := source4 w fd address0 port0 s
      if rc < 0 then (rc, w.close fd s)
      else
        let (rc, s) := setInterface w fd interface s
        if rc < 0 then (rc, w.close fd s)
        else
          let (rc, s) := w.connect fd (.inet address port) s
          if rc < 0 then (rc, w.close fd s)
          else (fd, s)

/-- `diminuto_ipc4_datagram_peer_base`, `Diminuto/src/diminuto_ipc4.c:387-406`. -/
def peer4 (address : BitVec 32) (port : BitVec 16) (interface : Option (List Byte)) (functionp : Option (Int → σ → Int × σ)) (s : σ) : Int × σ :=
  let (fd, s) := w.socket .inet .dgram s
  if fd < 0 then (fd, s)
  else
    let (rc, s) := inject functionp fd s
    if rc < 0 then (rc, w.close fd s)
    else
      let (rc, s) := source4 w fd address port s
      if rc < 0 then (rc, w.close fd s)
      else
        let (rc, s) := setInterface w fd interface s
        if rc < 0 then (rc, w.close fd s)
        else (fd, s)

/-- The limit of the backlog, `Diminuto/src/diminuto_ipc6.c:457-463`, `Diminuto/src/diminuto_ipcl.c:249-255` and `:406-412`. -/
def limit (backlog : Int) : Int :=
  if backlog > SOMAXCONN then SOMAXCONN
  else if backlog < 0 then SOMAXCONN
  else backlog

/-- `diminuto_ipc6_stream_provider_base`, `Diminuto/src/diminuto_ipc6.c:452-483`. -/
def provider6 (address : BitVec 128) (port : BitVec 16) (interface : Option (List Byte)) (backlog : Int) (functionp : Option (Int → σ → Int × σ)) (s : σ) : Int × σ :=
  let (fd, s) := w.socket .inet6 .stream s
  if fd < 0 then (fd, s)
  else
    let (rc, s) := inject functionp fd s
    if rc < 0 then (rc, w.close fd s)
    else
      let (rc, s) := source6 w fd address port s
      if rc < 0 then (rc, w.close fd s)
      else
        let (rc, s) := setInterface w fd interface s
        if rc < 0 then (rc, w.close fd s)
        else
          let (rc, s) := w.listen fd (limit backlog) s
          if rc < 0 then (rc, w.close fd s)
          else (fd, s)

/-- `diminuto_ipc6_stream_consumer_base`, `Diminuto/src/diminuto_ipc6.c:501-532`. -/
def consumer6 (address : BitVec 128) (port : BitVec 16) (address0 : BitVec 128) (port0 : BitVec 16) (interface : Option (List Byte))
    (functionp : Option (Int → σ → Int × σ)) (s : σ) : Int × σ :=
  let (fd, s) := w.socket .inet6 .stream s
  if fd < 0 then (fd, s)
  else
    let (rc, s) := inject functionp fd s
    if rc < 0 then (rc, w.close fd s)
    else
      let (rc, s) := source6 w fd address0 port0 s
      if rc < 0 then (rc, w.close fd s)
      else
        let (rc, s) := setInterface w fd interface s
        if rc < 0 then (rc, w.close fd s)
        else
          let (rc, s) := w.connect fd (.inet6 address port) s
          if rc < 0 then (rc, w.close fd s)
          else (fd, s)

/-- `diminuto_ipc6_datagram_peer_base`, `Diminuto/src/diminuto_ipc6.c:538-559`. -/
def peer6 (address : BitVec 128) (port : BitVec 16) (interface : Option (List Byte)) (functionp : Option (Int → σ → Int × σ)) (s : σ) : Int × σ :=
  let (fd, s) := w.socket .inet6 .dgram s
  if fd < 0 then (fd, s)
  else
    let (rc, s) := inject functionp fd s
    if rc < 0 then (rc, w.close fd s)
    else
      let (rc, s) := source6 w fd address port s
      if rc < 0 then (rc, w.close fd s)
      else
        let (rc, s) := setInterface w fd interface s
        if rc < 0 then (rc, w.close fd s)
        else (fd, s)

/-- `diminuto_ipcl_stream_provider_base`, `Diminuto/src/diminuto_ipcl.c:244-273`, and, with the other style, `diminuto_ipcl_packet_provider_base`, `:401-429`. -/
def providerl (style : Style) (path : Option (List Byte)) (backlog : Int) (functionp : Option (Int → σ → Int × σ)) (s : σ) : Int × σ :=
  let (fd, s) := w.socket .unix style s
  if fd < 0 then (fd, s)
  else
    let (rc, s) := inject functionp fd s
    if rc < 0 then (rc, w.close fd s)
    else
      let (rc, s) := sourcel w fd path s
      if rc < 0 then (rc, w.close fd s)
      else
        let (rc, s) := w.listen fd (limit backlog) s
        if rc < 0 then (rc, w.close fd s)
        else (fd, s)

/-- `diminuto_ipcl_stream_consumer_base`, `Diminuto/src/diminuto_ipcl.c:291-321`, and, with the other style, `diminuto_ipcl_packet_consumer_base`, `:431-461`.  A null pointer for
the path of the provider is undefined behaviour. -/
def consumerl (style : Style) (path : Option (List Byte)) (path0 : Option (List Byte)) (functionp : Option (Int → σ → Int × σ)) (s : σ) : Option (Int × σ) :=
  match path with
  | none => none
  | some path =>
    let (fd, s) := w.socket .unix style s
    if fd < 0 then some (fd, s)
    else
      let (rc, s) := inject functionp fd s
      if rc < 0 then some (rc, w.close fd s)
      else
        let (rc, s) := sourcel w fd path0 s
        if rc < 0 then some (rc, w.close fd s)
        else
          let (rc, s) := w.connect fd (.unix (Ipcl.address path)) s
          if rc < 0 then some (rc, w.close fd s)
          else some (fd, s)

/-- `diminuto_ipcl_datagram_peer_base`, `Diminuto/src/diminuto_ipcl.c:324-343`. -/
def peerl (path : Option (List Byte)) (functionp : Option (Int → σ → Int × σ)) (s : σ) : Int × σ :=
  let (fd, s) := w.socket .unix .dgram s
  if fd < 0 then (fd, s)
  else
    let (rc, s) := inject functionp fd s
    if rc < 0 then (rc, w.close fd s)
    else
      let (rc, s) := sourcel w fd path s
      if rc < 0 then (rc, w.close fd s)
      else (fd, s)

end

end Diminuto.Socket
