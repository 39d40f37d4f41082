import Verif.Address
import Verif.Ipcl

/-!
# Model of datagrams

`diminuto_ipc4_datagram_receive_generic`, `diminuto_ipc4_datagram_send_generic`, `diminuto_ipc4_nearend`, `diminuto_ipc4_farend` and those of IPv6 and of local sockets:
`Diminuto/src/diminuto_ipc4.c:192-220`, `:408-461`, `Diminuto/src/diminuto_ipc6.c:323-351`, `:559-613` and `Diminuto/src/diminuto_ipcl.c:137-165`, `:343-395`.  The system calls are arbitrary
functions of a state.  A socket address is made of bytes, and the byte order of the host is an argument, as in `Verif/Address.lean`.  The flow information of an IPv6 socket address is left out.
-/

namespace Diminuto.Datagram

open Address (V4 V6 swap16 swap32 swap6 bytes16 bytes32 mem identify4 identify6)

/-- A socket address: `struct sockaddr_in`, `struct sockaddr_in6` with its scope, which is the network interface of a link-local address, and `struct sockaddr_un` with the bytes of `sun_path`.  A socket
of which there is no name, or of another family, is `other`: the structure, which is all zeros before, `Diminuto/src/diminuto_ipcl.c:346`, has another family then. -/
inductive Name where
  | in4 (port : Fin 2 → Byte) (address : Fin 4 → Byte)
  | in6 (port : Fin 2 → Byte) (address : Fin 16 → Byte) (scope : BitVec 32)
  | un (sun : List Byte)
  | other

/-- The bytes as `Verif/Address.lean` has them. -/
def wide (n : Nat) (b : Fin n → Byte) (i : Nat) : Byte := if h : i < n then b ⟨i, h⟩ else 0

/-- So many bytes of memory. -/
def narrow (n : Nat) (b : Nat → Byte) (i : Fin n) : Byte := b i

/-- What `diminuto_ipc4_identify` and `diminuto_ipc6_identify` see of a socket address, `Diminuto/src/diminuto_ipc6.c:95-109`: the scope is not looked at. -/
def Name.sock : Name → Address.Sock
  | .in4 p b => .in4 (wide 2 p) (wide 4 b)
  | .in6 p b _ => .in6 (wide 2 p) (wide 16 b)
  | _ => .other

/-- `errno` as far as it is looked at, `Diminuto/src/diminuto_ipc4.c:418-424`; `EWOULDBLOCK` is `EAGAIN`. -/
inductive Errno where
  | intr | again | other
deriving DecidableEq

/-- Whether there is a message, `Diminuto/src/diminuto_ipc4.c:418-426`. -/
def Errno.told : Errno → Bool
  | .intr => false
  | .again => false
  | .other => true

/-- What `recvfrom(2)` has: its result, which may be more than the data if the flags say so, the data, and from whom. -/
structure Packet where
  total : Nat
  data : List Byte
  name : Name

/-- The system calls that are used: with a descriptor, a size or data, flags and perhaps a destination. -/
structure World (σ : Type) where
  recvfrom : Int → Nat → Int → σ → Except Errno Packet × σ
  sendto : Int → List Byte → Int → Option Name → σ → Except Errno Nat × σ
  getsockname : Int → σ → Except Errno Name × σ
  getpeername : Int → σ → Except Errno Name × σ

/-- What a function that receives leaves: its result, what there is in the buffer, the variables for the sender, and whether there is a message in the log. -/
structure Received (α : Type) where
  total : Int
  data : List Byte
  sender : α
  told : Bool

section
variable {σ : Type} (w : World σ) (le : Bool)

/-- `diminuto_ipc4_datagram_receive_generic`, `Diminuto/src/diminuto_ipc4.c:408-429`.  A pointer that is not NULL is what it points to. -/
def receive4 (fd : Int) (size : Nat) (flags : Int) (addressp : Option V4) (portp : Option (BitVec 16)) (s : σ) : Received (Option V4 × Option (BitVec 16)) × σ :=
  match w.recvfrom fd size flags s with
  | (.ok k, s) =>
    if k.total > 0 then
      let r := identify4 le k.name.sock
      (⟨k.total, k.data, (addressp.map fun _ => r.2.1, portp.map fun _ => r.2.2), false⟩, s)
    else (⟨0, k.data, (addressp, portp), false⟩, s)
  | (.error e, s) => (⟨-1, [], (addressp, portp), e.told⟩, s)

/-- `diminuto_ipc6_datagram_receive_generic`, `Diminuto/src/diminuto_ipc6.c:559-580`. -/
def receive6 (fd : Int) (size : Nat) (flags : Int) (addressp : Option V6) (portp : Option (BitVec 16)) (s : σ) : Received (Option V6 × Option (BitVec 16)) × σ :=
  match w.recvfrom fd size flags s with
  | (.ok k, s) =>
    if k.total > 0 then (⟨k.total, k.data, (addressp.map fun old => (identify6 le old k.name.sock).2.1, portp.map fun _ => (identify6 le Address.UNSPECIFIED k.name.sock).2.2), false⟩, s)
    else (⟨0, k.data, (addressp, portp), false⟩, s)
  | (.error e, s) => (⟨-1, [], (addressp, portp), e.told⟩, s)

/-- The family and the bytes of a local socket address, `Diminuto/src/diminuto_ipcl.c:78-84`. -/
def Name.sun : Name → Bool × List Byte
  | .un sun => (true, sun)
  | _ => (false, [])

/-- `diminuto_ipcl_datagram_receive_generic`, `Diminuto/src/diminuto_ipcl.c:343-364`.  `none` is undefined behaviour of `diminuto_ipcl_identify`. -/
def receivel (fd : Int) (size : Nat) (flags : Int) (pathp : Option (List Byte)) (s : σ) : Option (Received (Option (List Byte)) × σ) :=
  match w.recvfrom fd size flags s with
  | (.ok k, s) =>
    if k.total > 0 then
      match Ipcl.identify k.name.sun.1 k.name.sun.2 pathp with
      | none => none
      | some r => some (⟨k.total, k.data, r.2, false⟩, s)
    else some (⟨0, k.data, pathp, false⟩, s)
  | (.error e, s) => some (⟨-1, [], pathp, e.told⟩, s)

/-- The result of `sendto(2)` and whether there is a message in the log, `Diminuto/src/diminuto_ipc4.c:446-460`, `Diminuto/src/diminuto_ipc6.c:598-612` and `Diminuto/src/diminuto_ipcl.c:380-394`. -/
def report : Except Errno Nat × σ → (Int × Bool) × σ
  | (.ok n, s) => ((n, false), s)
  | (.error e, s) => ((-1, e.told), s)

/-- The socket address of an IPv4 address and a port, `Diminuto/src/diminuto_ipc4.c:439-443`. -/
def name4 (address : V4) (port : BitVec 16) : Name := .in4 (narrow 2 (bytes16 le (swap16 le port))) (narrow 4 (bytes32 le (swap32 le address)))

/-- The socket address of an IPv6 address and a port, `Diminuto/src/diminuto_ipc6.c:590-595`; all else in it is zero, `:585`. -/
def name6 (address : V6) (port : BitVec 16) : Name := .in6 (narrow 2 (bytes16 le (swap16 le port))) (narrow 16 (mem le (swap6 le address))) 0

/-- `diminuto_ipc4_datagram_send_generic`, `Diminuto/src/diminuto_ipc4.c:431-461`. -/
def send4 (fd : Int) (data : List Byte) (address : V4) (port : BitVec 16) (flags : Int) (s : σ) : (Int × Bool) × σ :=
  report (w.sendto fd data flags (if port.toNat > 0 then some (name4 le address port) else none) s)

/-- `diminuto_ipc6_datagram_send_generic`, `Diminuto/src/diminuto_ipc6.c:582-613`. -/
def send6 (fd : Int) (data : List Byte) (address : V6) (port : BitVec 16) (flags : Int) (s : σ) : (Int × Bool) × σ :=
  report (w.sendto fd data flags (if port.toNat > 0 then some (name6 le address port) else none) s)

/-- `diminuto_ipcl_datagram_send_generic`, `Diminuto/src/diminuto_ipcl.c:366-395`. -/
def sendl (fd : Int) (data : List Byte) (path : Option (List Byte)) (flags : Int) (s : σ) : (Int × Bool) × σ :=
  report (w.sendto fd data flags (path.map fun p => .un (Ipcl.address p)) s)

/-- `diminuto_ipc4_nearend` with `getsockname(2)` and `diminuto_ipc4_farend` with `getpeername(2)`, `Diminuto/src/diminuto_ipc4.c:192-220`: the result, the variables, and whether there is a message. -/
def end4 (call : Int → σ → Except Errno Name × σ) (fd : Int) (addressp : Option V4) (portp : Option (BitVec 16)) (s : σ) : (Int × (Option V4 × Option (BitVec 16)) × Bool) × σ :=
  match call fd s with
  | (.ok n, s) => ((0, (addressp.map fun _ => (identify4 le n.sock).2.1, portp.map fun _ => (identify4 le n.sock).2.2), false), s)
  | (.error _, s) => ((-1, (addressp, portp), true), s)

/-- `diminuto_ipc6_nearend` and `diminuto_ipc6_farend`, `Diminuto/src/diminuto_ipc6.c:323-351`. -/
def end6 (call : Int → σ → Except Errno Name × σ) (fd : Int) (addressp : Option V6) (portp : Option (BitVec 16)) (s : σ) : (Int × (Option V6 × Option (BitVec 16)) × Bool) × σ :=
  match call fd s with
  | (.ok n, s) => ((0, (addressp.map fun old => (identify6 le old n.sock).2.1, portp.map fun _ => (identify6 le Address.UNSPECIFIED n.sock).2.2), false), s)
  | (.error _, s) => ((-1, (addressp, portp), true), s)

/-- `diminuto_ipcl_nearend` and `diminuto_ipcl_farend`, `Diminuto/src/diminuto_ipcl.c:137-165`. -/
def endl (call : Int → σ → Except Errno Name × σ) (fd : Int) (pathp : Option (List Byte)) (s : σ) : Option ((Int × Option (List Byte) × Bool) × σ) :=
  match call fd s with
  | (.ok n, s) =>
    match Ipcl.identify n.sun.1 n.sun.2 pathp with
    | none => none
    | some r => some ((0, r.2, false), s)
  | (.error _, s) => some ((-1, pathp, true), s)

end

/-! ## Names of hosts -/

/-- What `gethostbyname(3)` has: whether the addresses are of IPv4, how long they are, and the addresses, `Diminuto/src/diminuto_ipc4.c:100-112`. -/
structure Host where
  inet : Bool
  length : Int
  list : List (List Byte)

/-- `memset` and `memcpy` of an address, `Diminuto/src/diminuto_ipc4.c:111-112` and `:135-136`.  A negative length is a very large one, and an address may be too short for it: that is undefined. -/
def fetch (le : Bool) (length : Int) (b : List Byte) : Option (BitVec 32) :=
  let n := if length < 4 then length else 4
  if n < 0 ∨ b.length < n.toNat then none
  else some (Address.load32 le fun i => if i < n.toNat then b.getD i 0 else 0)

/-- `diminuto_ipc4_addresses`, `Diminuto/src/diminuto_ipc4.c:88-120`: NULL, or the array.  The address that `inet_aton(3)` has, if it has one, and the host that `gethostbyname(3)` has are arguments.  The
outer `none` is undefined behaviour.  `malloc(3)` is assumed to succeed, since the code does not check it. -/
def addresses4 (le : Bool) (aton : Option (BitVec 32)) (host : Option Host) : Option (Option (List V4)) :=
  match aton with
  | some a => some (some [swap32 le a, 0])
  | none =>
    match host with
    | none => some none
    | some h =>
      if h.inet = false then some none
      else if h.list.length > 0 then
        match h.list.mapM (fetch le h.length) with
        | none => none
        | some l => some (some (l.map (swap32 le) ++ [0]))
      else some none

/-- `diminuto_ipc4_address`, `Diminuto/src/diminuto_ipc4.c:122-141`. -/
def address4 (le : Bool) (aton : Option (BitVec 32)) (host : Option Host) : Option V4 :=
  match aton with
  | some a => some (swap32 le a)
  | none =>
    match host with
    | none => some 0
    | some h =>
      if h.inet = false then some 0
      else
        match h.list with
        | [] => none
        | b :: _ => (fetch le h.length b).map (swap32 le)

/-- `AF_INET6`, `AF_INET` and `AF_UNSPEC`. -/
inductive Family where
  | inet6 | inet | unspec
deriving DecidableEq

/-- What `getaddrinfo(3)` has: whether its result is zero, and the list, if there is one. -/
structure Info where
  ok : Bool
  list : Option (List (Option Address.Sock))

/-- What is done with lists: one is asked for, or the one that was got for this family is freed. -/
inductive Deed where
  | asked (f : Family)
  | freed (f : Family)
deriving DecidableEq

/-- A try of `resolve`, `Diminuto/src/diminuto_ipc6.c:160-164`: the list if it succeeded, and what was done. -/
def attempt (get : Family → Info) (f : Family) (log : List Deed) : Option (Option (List (Option Address.Sock))) × List Deed :=
  let i := get f
  if i.ok then (some i.list, log ++ [.asked f])
  else (none, if i.list.isSome then log ++ [.asked f, .freed f] else log ++ [.asked f])

/-- `resolve`, `Diminuto/src/diminuto_ipc6.c:153-182`: the family that the list was got for, the list or NULL, and what was done. -/
def resolve (get : Family → Info) : (Family × Option (List (Option Address.Sock))) × List Deed :=
  match attempt get .inet6 [] with
  | (some l, log) => ((.inet6, l), log)
  | (none, log) =>
    match attempt get .inet log with
    | (some l, log) => ((.inet, l), log)
    | (none, log) =>
      match attempt get .unspec log with
      | (some l, log) => ((.unspec, l), log)
      | (none, log) => ((.unspec, none), log)

/-- `diminuto_ipc6_addresses`, `Diminuto/src/diminuto_ipc6.c:219-247`: NULL, or the array, and what was done; the outer `none` is undefined behaviour. -/
def addresses6 (le : Bool) (old : V6) (get : Family → Info) : Option (Option (List V6) × List Deed) :=
  match resolve get with
  | ((_, none), log) => some (none, log)
  | ((f, some l), log) => (Address.addresses le old l).map fun r => (some r, log ++ [.freed f])

/-- `diminuto_ipc6_address`, `Diminuto/src/diminuto_ipc6.c:249-260`.  A list that is not NULL has an element; that it may have no address is undefined behaviour. -/
def address6 (le : Bool) (get : Family → Info) : Option (V6 × List Deed) :=
  match resolve get with
  | ((_, none), log) => some (Address.UNSPECIFIED, log)
  | ((_, some []), _) => none
  | ((_, some (none :: _)), _) => none
  | ((f, some (some k :: _)), log) => some ((identify6 le Address.UNSPECIFIED k).2.1, log ++ [.freed f])

end Diminuto.Datagram
