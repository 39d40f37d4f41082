import Verif.Ipcl

/-!
# Model of the lists of network interfaces and of their addresses

`diminuto_ipc_interfaces`, `Diminuto/src/diminuto_ipc.c:296-356`, `diminuto_ipc4_interface`, `Diminuto/src/diminuto_ipc4.c:226-282`, and `diminuto_ipc6_interface`,
`Diminuto/src/diminuto_ipc6.c:357-419`.  What `getifaddrs(3)` returns and whether `malloc(3)` succeeds are parameters; `none` is undefined behaviour.  Addresses are numbers: the
conversions from the byte order of the network are those of `Verif/AddressProps.lean`.
-/

namespace Diminuto.Interfaces

/-- `ifa_addr`: its family and the address. -/
inductive Address where
  | inet (a : BitVec 32)
  | inet6 (a : BitVec 128)
  | other
deriving DecidableEq

/-- `struct ifaddrs`; both fields may be null pointers. -/
structure Entry where
  name : Option (List Byte)
  address : Option Address

/-- `NAME_MAX`. -/
def NAME : Nat := 255

/-- `strnlen(3)`. -/
def strnlen (s : List Byte) (n : Nat) : Nat := if s.length < n then s.length else n

/-- The first loop, `Diminuto/src/diminuto_ipc.c:315-320`: the sizes of the vector (in pointers) and of the characters. -/
def sizes : List Entry → Nat × Nat → Nat × Nat
  | [], (vs, ns) => (vs, ns)
  | e :: ip, (vs, ns) =>
    match e.name with
    | none => sizes ip (vs, ns)
    | some n => sizes ip (vs + 1, ns + (strnlen n NAME + 1))

/-- The block: the pointers that have been written, as offsets from the beginning of the characters, and the characters that have been written. -/
structure Block where
  pointers : List Nat
  chars : List Byte
deriving DecidableEq

/-- The string that a pointer of the block points to. -/
def Block.string (b : Block) (p : Nat) : List Byte := (b.chars.drop p).takeWhile (· ≠ 0#8)

/-- The second loop, `Diminuto/src/diminuto_ipc.c:327-342`; a write beyond the vector or beyond the block is undefined behaviour. -/
def fill (vs ns : Nat) : List Entry → Block → Option Block
  | [], b => some b
  | e :: ip, b =>
    match e.name with
    | none => fill vs ns ip b
    | some n =>
      if b.pointers.any (fun p => Ipcl.strncmp NAME n (b.string p) == 0) then fill vs ns ip b
      else if b.pointers.length < vs ∧ b.chars.length + strnlen n NAME + 1 ≤ ns then
        fill vs ns ip { pointers := b.pointers ++ [b.chars.length], chars := b.chars ++ n.take (strnlen n NAME) ++ [0#8] }
      else none

/-- `diminuto_ipc_interfaces`, `Diminuto/src/diminuto_ipc.c:296-356`: NULL, or the block, with the null pointer at the end of the vector understood. -/
def interfaces (ifa : Option (List Entry)) (malloc : Bool) : Option (Option Block) :=
  match ifa with
  | none => some none
  | some ifa =>
    let (vs, ns) := sizes ifa (1, 0)
    if malloc = false then none
    else
      match fill vs ns ifa ⟨[], []⟩ with
      | none => none
      | some b => if b.pointers.length < vs then some (some b) else none

/-- The conditions of both loops, `Diminuto/src/diminuto_ipc4.c:242-252` and `:259-269`; comparing with a null pointer is undefined behaviour. -/
def matches4 (interface : Option (List Byte)) (e : Entry) : Option (Option (BitVec 32)) :=
  match e.name with
  | none => some none
  | some n =>
    match e.address with
    | some (.inet a) =>
      match interface with
      | none => none
      | some i => if Ipcl.strncmp NAME n i ≠ 0 then some none else some (some a)
    | _ => some none

/-- The same for the other family, `Diminuto/src/diminuto_ipc6.c:373-385` and `:390-404`. -/
def matches6 (interface : Option (List Byte)) (e : Entry) : Option (Option (BitVec 128)) :=
  match e.name with
  | none => some none
  | some n =>
    match e.address with
    | some (.inet6 a) =>
      match interface with
      | none => none
      | some i => if Ipcl.strncmp NAME n i ≠ 0 then some none else some (some a)
    | _ => some none

/-- The first loop: the size of the array. -/
def count {α : Type} (p : Entry → Option (Option α)) : List Entry → Nat → Option Nat
  | [], vs => some vs
  | e :: ip, vs =>
    match p e with
    | none => none
    | some none => count p ip vs
    | some (some _) => count p ip (vs + 1)

/-- The second loop. -/
def store {α : Type} (p : Entry → Option (Option α)) (vs : Nat) : List Entry → List α → Option (List α)
  | [], v => some v
  | e :: ip, v =>
    match p e with
    | none => none
    | some none => store p vs ip v
    | some (some a) => if v.length < vs then store p vs ip (v ++ [a]) else none

/-- What the functions have in common: NULL, or the array with the zero at its end. -/
def collect {α : Type} (zero : α) (p : Entry → Option (Option α)) (ifa : Option (List Entry)) (malloc : Bool) : Option (Option (List α)) :=
  match ifa with
  | none => some none
  | some ifa =>
    match count p ifa 1 with
    | none => none
    | some vs =>
      if malloc = false then none
      else
        match store p vs ifa [] with
        | none => none
        | some v => if v.length < vs then some (some (v ++ [zero])) else none

/-- `diminuto_ipc4_interface`, `Diminuto/src/diminuto_ipc4.c:226-282`. -/
def interface4 (ifa : Option (List Entry)) (malloc : Bool) (interface : Option (List Byte)) : Option (Option (List (BitVec 32))) :=
  collect 0 (matches4 interface) ifa malloc

/-- `diminuto_ipc6_interface`, `Diminuto/src/diminuto_ipc6.c:357-419`. -/
def interface6 (ifa : Option (List Entry)) (malloc : Bool) (interface : Option (List Byte)) : Option (Option (List (BitVec 128))) :=
  collect 0 (matches6 interface) ifa malloc

end Diminuto.Interfaces
