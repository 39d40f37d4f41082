import Verif.Fletcher

/-!
# Model of the internet addresses

`Diminuto/src/diminuto_ipc6.c`, `Diminuto/src/diminuto_ipc4.c` and their headers, as far as they are about the representation and the kinds of addresses.
Memory is modelled byte by byte, and the byte order of the host is an argument, `le` if it is little endian.
-/

namespace Diminuto.Address

/-- `diminuto_ipv4_t`, an address in host byte order, `Diminuto/inc/com/diag/diminuto/diminuto_types.h`. -/
abbrev V4 := BitVec 32

/-- `diminuto_ipv6_t`, eight words in host byte order (or network byte order, in between), `Diminuto/inc/com/diag/diminuto/diminuto_types.h`. -/
abbrev V6 := Fin 8 → BitVec 16

/-- The bytes of a 16-bit word in memory. -/
def bytes16 (le : Bool) (w : BitVec 16) (i : Nat) : Byte :=
  if le then w.extractLsb' (8 * i) 8 else w.extractLsb' (8 * (1 - i)) 8

/-- The 16-bit word that some bytes in memory are. -/
def load16 (le : Bool) (b : Nat → Byte) : BitVec 16 := if le then b 1 ++ b 0 else b 0 ++ b 1

/-- The bytes of a 32-bit word in memory. -/
def bytes32 (le : Bool) (w : BitVec 32) (i : Nat) : Byte :=
  if le then w.extractLsb' (8 * i) 8 else w.extractLsb' (8 * (3 - i)) 8

/-- The 32-bit word that some bytes in memory are. -/
def load32 (le : Bool) (b : Nat → Byte) : BitVec 32 := if le then b 3 ++ b 2 ++ b 1 ++ b 0 else b 0 ++ b 1 ++ b 2 ++ b 3

/-- `htons(3)` and `ntohs(3)`, as at `Diminuto/src/diminuto_ipc6.c:43` and `:52`. -/
def swap16 (le : Bool) (w : BitVec 16) : BitVec 16 := if le then w.extractLsb' 0 8 ++ w.extractLsb' 8 8 else w

/-- `htonl(3)` and `ntohl(3)`, as at `Diminuto/src/diminuto_ipc6.c:67` and `:76`. -/
def swap32 (le : Bool) (w : BitVec 32) : BitVec 32 :=
  if le then w.extractLsb' 0 8 ++ w.extractLsb' 8 8 ++ w.extractLsb' 16 8 ++ w.extractLsb' 24 8 else w

/-- The bytes of an address in memory. -/
def mem (le : Bool) (a : V6) (i : Nat) : Byte := if h : i / 2 < 8 then bytes16 le (a ⟨i / 2, h⟩) (i % 2) else 0

/-- The address that some bytes in memory are. -/
def load (le : Bool) (b : Nat → Byte) : V6 := fun j => load16 le fun i => b (2 * j + i)

/-- `memcpy(3)` of so many bytes from one place to an offset, as at `Diminuto/src/diminuto_ipc6.c:75` and `:77`. -/
def copy (dst : Nat → Byte) (off : Nat) (src : Nat → Byte) (n : Nat) : Nat → Byte := fun i => if off ≤ i ∧ i < off + n then src (i - off) else dst i

/-- `diminuto_ipc6_ntoh6` and `diminuto_ipc6_hton6`, `Diminuto/src/diminuto_ipc6.c:38-54` and `Diminuto/src/diminuto_ipc6.h:34-55`: `diminuto_littleendian()`
is whether the host is little endian (and then `ntohs` swaps). -/
def swap6 (le : Bool) (a : V6) : V6 := if le then fun j => swap16 le (a j) else a

/-- `DIMINUTO_IPC6_LOOPBACK4`, `Diminuto/inc/com/diag/diminuto/diminuto_ipc6.h:74`. -/
def LOOPBACK4 : V6 := fun j => [0, 0, 0, 0, 0, 0xffff, 0x7f00, 0x0001].getD j 0

/-- `DIMINUTO_IPC6_UNSPECIFIED`, `Diminuto/inc/com/diag/diminuto/diminuto_ipc6.h:61`, `:85`. -/
def UNSPECIFIED : V6 := fun _ => 0

/-- `DIMINUTO_IPC6_LOOPBACK`, `Diminuto/inc/com/diag/diminuto/diminuto_ipc6.h:67`, `:91`. -/
def LOOPBACK : V6 := fun j => [0, 0, 0, 0, 0, 0, 0, 1].getD j 0

/-- `memcmp(3)` of so many bytes for equality, as at `Diminuto/inc/com/diag/diminuto/diminuto_ipc6.h:111` and `:155`. -/
def same (le : Bool) (a b : V6) (n : Nat) : Bool := (List.range n).all fun i => mem le a i == mem le b i

/-- `diminuto_ipc6_is_v4mapped`, `Diminuto/inc/com/diag/diminuto/diminuto_ipc6.h:154-156`. -/
def isV4mapped (le : Bool) (a : V6) : Bool := same le a LOOPBACK4 (16 - 4)

/-- `diminuto_ipc6_ipv6toipv4`, `Diminuto/src/diminuto_ipc6.c:60-71`: what is stored, if the result is true. -/
def ipv6toipv4 (le : Bool) (a : V6) : Option V4 :=
  if isV4mapped le a then some (swap32 le (load32 le fun i => mem le (swap6 le a) (12 + i))) else none

/-- `diminuto_ipc6_ipv4toipv6`, `Diminuto/src/diminuto_ipc6.c:73-80`.  `old` is what has been there before. -/
def ipv4toipv6 (le : Bool) (old : V6) (a : V4) : V6 :=
  let m := copy (mem le old) 0 (mem le LOOPBACK4) (16 - 4)
  let m := copy m 12 (bytes32 le (swap32 le a)) 4
  let x := load le m
  fun j => if j = 6 then swap16 le (x 6) else if j = 7 then swap16 le (x 7) else x j

/-- `struct sockaddr`, whose contents are in network byte order: a port and an address of four or sixteen bytes, as at
`Diminuto/src/diminuto_ipc6.c:95-109`. -/
inductive Sock where
  | in6 (port : Nat → Byte) (addr : Nat → Byte)
  | in4 (port : Nat → Byte) (addr : Nat → Byte)
  | other

/-- `diminuto_ipc6_identify`, `Diminuto/src/diminuto_ipc6.c:91-121`: the return value, the address and the port, if both are asked for. -/
def identify6 (le : Bool) (old : V6) : Sock → Int × V6 × BitVec 16
  | .in6 p b => (0, swap6 le (load le b), swap16 le (load16 le p))
  | .in4 p b => (0, ipv4toipv6 le old (swap32 le (load32 le b)), swap16 le (load16 le p))
  | .other => (-1, UNSPECIFIED, 0)

/-- `diminuto_ipc4_identify`, `Diminuto/src/diminuto_ipc4.c:43-65`. -/
def identify4 (le : Bool) : Sock → Int × V4 × BitVec 16
  | .in4 p b => (0, swap32 le (load32 le b), swap16 le (load16 le p))
  | _ => (-1, 0, 0)

/-! ## Kinds of addresses -/

/-- `diminuto_ipc4_is_limitedbroadcast`, `Diminuto/inc/com/diag/diminuto/diminuto_ipc4.h:102-104`. -/
def isLimitedBroadcast (a : V4) : Bool := a.toNat == 0xffffffff

/-- `diminuto_ipc4_is_loopback`, `Diminuto/inc/com/diag/diminuto/diminuto_ipc4.h:111-113`. -/
def isLoopback4 (a : V4) : Bool := decide (0x7f000001 ≤ a.toNat) && decide (a.toNat ≤ 0x7fffffff)

/-- `diminuto_ipc4_is_private`, `Diminuto/inc/com/diag/diminuto/diminuto_ipc4.h:120-124`. -/
def isPrivate (a : V4) : Bool :=
  (decide (0xc0a80000 ≤ a.toNat) && decide (a.toNat ≤ 0xc0a8ffff)) || (decide (0xac100000 ≤ a.toNat) && decide (a.toNat ≤ 0xac1fffff)) ||
  (decide (0x0a000000 ≤ a.toNat) && decide (a.toNat ≤ 0x0affffff))

/-- `diminuto_ipc4_is_multicast`, `Diminuto/inc/com/diag/diminuto/diminuto_ipc4.h:131-133`. -/
def isMulticast4 (a : V4) : Bool := decide (0xe0000000 ≤ a.toNat) && decide (a.toNat ≤ 0xefffffff)

/-- `diminuto_ipc4_address2type`, `Diminuto/src/diminuto_ipc4.c:169-186`. -/
def type4 (a : V4) : String :=
  if isLimitedBroadcast a then "limited-broadcast"
  else if isLoopback4 a then "loopback"
  else if isPrivate a then "private"
  else if isMulticast4 a then "multicast"
  else "public"

/-- `diminuto_ipc6_is_loopback`, `Diminuto/inc/com/diag/diminuto/diminuto_ipc6.h:134-136`. -/
def isLoopback (le : Bool) (a : V6) : Bool := same le a LOOPBACK 16

/-- `diminuto_ipc6_is_loopback4`, `Diminuto/inc/com/diag/diminuto/diminuto_ipc6.h:144-146`. -/
def isLoopback46 (le : Bool) (a : V6) : Bool := same le a LOOPBACK4 16

/-- `diminuto_ipc6_is_v4compatible`, `Diminuto/inc/com/diag/diminuto/diminuto_ipc6.h:164-166`. -/
def isV4compatible (le : Bool) (a : V6) : Bool := same le a UNSPECIFIED (16 - 4)

/-- `diminuto_ipc6_is_nat64wkp`, `Diminuto/inc/com/diag/diminuto/diminuto_ipc6.h:174-176`. -/
def isNat64 (a : V6) : Bool := a 0 == 0x64 && a 1 == 0xff9b && a 2 == 0 && a 3 == 0 && a 4 == 0 && a 5 == 0

/-- `diminuto_ipc6_is_unicastglobal`, `Diminuto/inc/com/diag/diminuto/diminuto_ipc6.h:184-186`. -/
def isGlobal (a : V6) : Bool := decide (0x2000 ≤ (a 0).toNat) && decide ((a 0).toNat ≤ 0x3fff)

/-- `diminuto_ipc6_is_isatap`, `Diminuto/inc/com/diag/diminuto/diminuto_ipc6.h:194-196`. -/
def isIsatap (a : V6) : Bool := isGlobal a && a 4 == 0 && a 5 == 0x5efe

/-- `diminuto_ipc6_is_6to4`, `Diminuto/inc/com/diag/diminuto/diminuto_ipc6.h:204-206`. -/
def is6to4 (a : V6) : Bool := a 0 == 0x2002

/-- `diminuto_ipc6_is_uniquelocal`, `Diminuto/inc/com/diag/diminuto/diminuto_ipc6.h:214-216`. -/
def isUniqueLocal (a : V6) : Bool := decide (0xfc00 ≤ (a 0).toNat) && decide ((a 0).toNat ≤ 0xfdff)

/-- `diminuto_ipc6_is_linklocal`, `Diminuto/inc/com/diag/diminuto/diminuto_ipc6.h:224-226`. -/
def isLinkLocal (a : V6) : Bool := decide (0xfe80 ≤ (a 0).toNat) && decide ((a 0).toNat ≤ 0xfebf)

/-- `diminuto_ipc6_is_multicast`, `Diminuto/inc/com/diag/diminuto/diminuto_ipc6.h:234-236`. -/
def isMulticast6 (a : V6) : Bool := decide (0xff00 ≤ (a 0).toNat) && decide ((a 0).toNat ≤ 0xffff)

/-- `diminuto_ipc6_address2type`, `Diminuto/src/diminuto_ipc6.c:286-319`. -/
def type6 (le : Bool) (a : V6) : String :=
  if isLoopback le a then "loopback"
  else if isGlobal a then "global-unicast"
  else if isUniqueLocal a then "unique-local"
  else if isLinkLocal a then "link-local"
  else if isMulticast6 a then "multicast"
  else if isNat64 a then "nat64-wkp"
  else if isIsatap a then "atap"
  else if is6to4 a then "6to4"
  else if isLoopback46 le a then "v4-loopback"
  else if isV4mapped le a then "v4-mapped"
  else if isV4compatible le a then "v4-compatible"
  else "public"

/-! ## The addresses of a host -/

/-- `redundant`, `Diminuto/src/diminuto_ipc6.c:194-217`.  An element of the list from `getaddrinfo(3)` may have no address. -/
def redundant (prev : Option (Option Sock)) (next : Option Sock) (same6 same4 : (Nat → Byte) → (Nat → Byte) → Bool) : Bool :=
  match next with
  | none => true
  | some .other => true
  | some (.in6 _ b) =>
    match prev with
    | some (some (.in6 _ b')) => same6 b b'
    | _ => false
  | some (.in4 _ b) =>
    match prev with
    | some (some (.in4 _ b')) => same4 b b'
    | _ => false

/-- `memcmp(3)` of two addresses in a socket address, `Diminuto/src/diminuto_ipc6.c:208` and `:210`. -/
def sameBytes (n : Nat) (a b : Nat → Byte) : Bool := (List.range n).all fun i => a i == b i

/-- The first loop of `diminuto_ipc6_addresses`, `Diminuto/src/diminuto_ipc6.c:228-233`: how many addresses there are. -/
def countLoop : Option (Option Sock) → List (Option Sock) → Nat
  | _, [] => 0
  | prev, x :: l => if redundant prev x (sameBytes 16) (sameBytes 4) then countLoop (some x) l else countLoop (some x) l + 1

/-- The second loop of `diminuto_ipc6_addresses`, `Diminuto/src/diminuto_ipc6.c:235-241`, into an array of so many places.  `none` is a store beyond its end, or
a null pointer.  `old` is what the memory has had in it. -/
def storeLoop (le : Bool) (old : V6) (cap : Nat) : Option (Option Sock) → List (Option Sock) → List V6 → Option (List V6)
  | _, [], acc => some acc
  | prev, x :: l, acc =>
    if redundant prev x (sameBytes 16) (sameBytes 4) then storeLoop le old cap (some x) l acc
    else
      match x with
      | none => none
      | some s => if acc.length < cap then storeLoop le old cap (some x) l (acc ++ [(identify6 le old s).2.1]) else none

/-- `diminuto_ipc6_addresses`, `Diminuto/src/diminuto_ipc6.c:219-248`, for a name that resolves to this list: the array.  `malloc(3)` is assumed to succeed,
since the code does not check it. -/
def addresses (le : Bool) (old : V6) (l : List (Option Sock)) : Option (List V6) :=
  let cap := countLoop none l + 1
  (storeLoop le old cap none l []).bind fun acc => if acc.length < cap then some (acc ++ [UNSPECIFIED]) else none

/-- The address and the port of a socket address as it is made by `diminuto_ipc6_stream_consumer_base`, `Diminuto/src/diminuto_ipc6.c:507-511`, and the other
functions that are given a far end. -/
def socket6 (le : Bool) (a : V6) (port : BitVec 16) : Sock := .in6 (bytes16 le (swap16 le port)) (mem le (swap6 le a))

/-- The address and the port of a socket address as it is made by `diminuto_ipc4_stream_consumer_base`, `Diminuto/src/diminuto_ipc4.c:358-360`. -/
def socket4 (le : Bool) (a : V4) (port : BitVec 16) : Sock := .in4 (bytes16 le (swap16 le port)) (bytes32 le (swap32 le a))

end Diminuto.Address
