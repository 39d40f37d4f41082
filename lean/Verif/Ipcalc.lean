import Verif.Dec

/-!
# Model of the tool that calculates addresses

`Diminuto/bin/ipcalc.c`.  `inet_aton(3)` and `inet_ntoa(3)` are arguments, since their behaviour is that of the C library.  An address is the word in memory, the bytes of which are in network order.
-/

namespace Diminuto.Ipcalc

/-- What a run comes to: the address that is printed with a status of zero, the menu with a status of zero, or a status of one. -/
inductive Outcome where
  | address (text : List Byte)
  | menu
  | usage
  | invalid (text : List Byte)
deriving DecidableEq

/-- `ntohl(3)` and `htonl(3)`. -/
def swap (little : Bool) (v : BitVec 32) : BitVec 32 :=
  if little then v.extractLsb' 0 8 ++ (v.extractLsb' 8 8 ++ (v.extractLsb' 16 8 ++ v.extractLsb' 24 8)) else v

/-- The address with three arguments, `Diminuto/bin/ipcalc.c:74-76`. -/
def host (address mask part : BitVec 32) : BitVec 32 := (address &&& mask) ||| (part &&& ~~~mask)

/-- The address with two arguments, `Diminuto/bin/ipcalc.c:78-80`. -/
def broadcast (address mask : BitVec 32) : BitVec 32 := (address &&& mask) ||| (BitVec.ofInt 32 (-1) ^^^ mask)

/-- The mask with one argument, `Diminuto/bin/ipcalc.c:82-92`. -/
def netmask (little : Bool) (address : BitVec 32) : BitVec 32 :=
  let address := swap little address
  if address &&& 0x80000000#32 = 0x00000000#32 then swap little 0xff000000#32
  else if address &&& 0xc0000000#32 = 0x80000000#32 then swap little 0xffff0000#32
  else swap little 0xffffff00#32

/-- The loop over the arguments, `Diminuto/bin/ipcalc.c:65-72`: the addresses, or the argument that is not one. -/
def addresses (aton : List Byte → Option (BitVec 32)) : List (List Byte) → List Byte ⊕ List (BitVec 32)
  | [] => .inr []
  | s :: r =>
    match aton s with
    | none => .inl s
    | some a =>
      match addresses aton r with
      | .inl e => .inl e
      | .inr l => .inr (a :: l)

/-- `main`, `Diminuto/bin/ipcalc.c:49-97`; the arguments are those after the name of the program. -/
def main (little : Bool) (aton : List Byte → Option (BitVec 32)) (ntoa : BitVec 32 → List Byte) (args : List (List Byte)) : Outcome :=
  if args = [Dec.ascii "-?"] then .menu
  else if ¬ (1 ≤ args.length ∧ args.length ≤ 3) then .usage
  else
    match addresses aton args with
    | .inl e => .invalid e
    | .inr [a, m, h] => .address (ntoa (host a m h))
    | .inr [a, m] => .address (ntoa (broadcast a m))
    | .inr [a] => .address (ntoa (netmask little a))
    | .inr _ => .usage

end Diminuto.Ipcalc
