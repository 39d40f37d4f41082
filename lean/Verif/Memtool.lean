import Verif.Map
import Verif.Number

/-!
# Model of the tool that manipulates memory

`Diminuto/bin/memtool.c`.  Registers are behind a bus, which is anything that answers to loads and stores of physical addresses and to the passage of time: each access through a `volatile` pointer is one of them.  The calls
that map memory are those of the model of `diminuto_map`, and there is a translation of virtual into physical addresses.  What is printed on the standard error is left out, as is `getopt(3)`: the options come with their arguments.
-/

namespace Diminuto.Memtool

open Diminuto.Map (World Stored)

/-- What is at the physical addresses: the load and the store of a number of bytes at an address, and a delay of a number of ticks. -/
structure Bus (β : Type) where
  load : Nat → Nat → β → Nat × β
  store : Nat → Nat → Nat → β → β
  wait : Nat → β → β

/-- What surrounds the program: the calls, the size of a page, the translation of addresses, and the bus. -/
structure Machine (σ β : Type) where
  world : World σ
  page : BitVec 31
  memory : σ → Nat → Option Nat
  bus : Bus β

/-- The operations, `Diminuto/bin/memtool.c:56-61`: `-C`, `-c`, `-S`, `-s`, `-w` and `-r`. -/
inductive Op where
  | bitClear | clear | bitSet | set | write | read
deriving DecidableEq

/-- The sizes, `Diminuto/bin/memtool.c:167-205`. -/
inductive Size where
  | byte | halfword | word | doubleword
deriving DecidableEq

/-- `sizeof`. -/
def Size.bytes : Size → BitVec 64
  | .byte => 1
  | .halfword => 2
  | .word => 4
  | .doubleword => 8

/-- The options with their arguments, `Diminuto/bin/memtool.c:163`: `-1`, `-2`, `-4` and `-8`, `-a`, `-l`, `-m`, `-u`, the operations (the argument of `-r` is not used), `-t` and `-f`, `-d` and `-o`, `-?` and anything that
`getopt(3)` refuses, and `-I` and `-i`. -/
inductive Opt where
  | at (size : Size) (text : List Byte)
  | address (text : List Byte)
  | length (text : List Byte)
  | mask (text : List Byte)
  | delay (text : List Byte)
  | operation (op : Op) (text : List Byte)
  | test (nonzero : Bool)
  | flag
  | menu
  | other
deriving DecidableEq

/-- The variables of `main`, `Diminuto/bin/memtool.c:146-158`, the calls, the bus, and the numbers that have been printed. -/
structure State (σ β : Type) where
  value : BitVec 64
  mask : BitVec 64
  address : BitVec 64
  length : BitVec 64
  base : BitVec 64
  stored : Stored
  offset : BitVec 64
  size : BitVec 64
  kernel : σ
  bus : β
  out : List Nat

/-- `_datum <<= (*valuep)` for a `_datum` of one, `Diminuto/bin/memtool.c:49`, `:56-57`: one of 8 or 16 bits is first converted to an `int` of 32, which has a sign, and the result is converted back; nothing if it is not defined. -/
def one (width : Nat) (value : BitVec 64) : Option (BitVec width) :=
  if width < 32 then (if value.toNat < 31 then some ((1#32 <<< value.toNat).setWidth width) else none)
  else if value.toNat < width then some (BitVec.ofNat width 1 <<< value.toNat) else none

/-- What is stored over what has been loaded, `Diminuto/bin/memtool.c:56-61`. -/
def changed (op : Op) (width : Nat) (mask value : BitVec 64) (datum : BitVec width) : Option (BitVec width) :=
  match op with
  | .bitClear => (one width value).map fun d => datum &&& ~~~d
  | .bitSet => (one width value).map fun d => (datum &&& ~~~(mask.setWidth width)) ||| d
  | .clear => some (datum &&& ~~~(value.setWidth width))
  | .set => some ((datum &&& ~~~(mask.setWidth width)) ||| value.setWidth width)
  | .write | .read => some (value.setWidth width)

/-- The physical address of an object of a number of bytes at a virtual one; nothing if it is not aligned, which is not defined, or not mapped, or not mapped in one piece. -/
def physical (memory : Nat → Option Nat) (v n : Nat) : Option Nat :=
  if v % n ≠ 0 then none
  else
    match memory v with
    | none => none
    | some p => if (List.range n).all (fun i => memory (v + i) = some (p + i)) then some p else none

/-- The number of ticks of a number of microseconds, `Diminuto/bin/memtool.c:286-287`; `diminuto_delay_frequency` is 1000000000. -/
def ticks (value : BitVec 64) : BitVec 64 := value * 1000000000#64 / 1000000#64

section
variable {σ β : Type} (m : Machine σ β)

/-- The accesses of `OPERATE` to an object of a number of bytes at a physical address, `Diminuto/bin/memtool.c:50-66`; nothing if it is not defined. -/
def access (op : Op) (mask : BitVec 64) (p n : Nat) (s : State σ β) : Option (State σ β) :=
  match op with
  | .read =>
    let r := m.bus.load p n s.bus
    let v := BitVec.ofNat (8 * n) r.1
    some { s with bus := r.2, out := s.out ++ [v.toNat], value := v.setWidth 64 }
  | .write =>
    let v := s.value.setWidth (8 * n)
    some { s with bus := m.bus.store p n v.toNat s.bus, value := v.setWidth 64 }
  | op =>
    let r := m.bus.load p n s.bus
    match changed op (8 * n) mask s.value (BitVec.ofNat (8 * n) r.1) with
    | none => none
    | some v => some { s with bus := m.bus.store p n v.toNat r.2, value := (s.value.setWidth (8 * n)).setWidth 64 }

/-- `OPERATE`, `Diminuto/bin/memtool.c:44-67`, of a pointer; nothing if it is not defined. -/
def perform (op : Op) (mask data : BitVec 64) (s : State σ β) : Option (State σ β) :=
  match physical (m.memory s.kernel) data.toNat s.size.toNat with
  | none => none
  | some p => access m op mask p s.size.toNat s

/-- `operate`, `Diminuto/bin/memtool.c:69-118`: whether it fails, and the state; nothing if it is not defined. -/
def operate (op : Op) (mask : BitVec 64) (s : State σ β) : Option (Bool × State σ β) :=
  let r :=
    if s.base ≠ 0#64 then (s.base, s.stored, s.kernel)
    else if s.length = 0#64 then Map.map m.world m.page s.offset s.size s.kernel
    else Map.map m.world m.page s.address s.length s.kernel
  let s := { s with base := r.1, stored := r.2.1, kernel := r.2.2 }
  let data := if s.length = 0#64 then s.base else s.base + s.offset
  if s.base = 0#64 then some (true, s)
  else
    (if s.size = 0#64 then some s else perform m op mask data s).map fun s =>
      if s.length = 0#64 then
        let u := Map.unmap m.world s.stored s.kernel
        (false, { s with stored := u.2.1, kernel := u.2.2, base := 0#64 })
      else (false, s)

/-- What becomes of the loop after an option: it goes on, it is done, there is an error, or the behaviour is not defined. -/
inductive Flow (σ β : Type) where
  | next (s : State σ β)
  | done (s : State σ β)
  | error (s : State σ β)
  | undefined

/-- The conversion of an argument, which is an error if anything is left of it, `Diminuto/bin/memtool.c:168` and others. -/
def number (text : List Byte) (s : State σ β) (rest : State σ β → Flow σ β) : Flow σ β :=
  let s := { s with value := BitVec.ofNat 64 (Number.unsigned text).1 }
  if (Number.unsigned text).2.1 ≠ [] then .error s else rest s

/-- The call of `operate`, `Diminuto/bin/memtool.c:224` and others. -/
def call (op : Op) (mask : BitVec 64) (s : State σ β) : Flow σ β :=
  match operate m op mask s with
  | none => .undefined
  | some (true, s) => .error s
  | some (false, s) => .next s

/-- An option, `Diminuto/bin/memtool.c:165-309`. -/
def step (o : Opt) (s : State σ β) : Flow σ β :=
  match o with
  | .at size text => number text s fun s => .next { s with size := size.bytes, offset := s.value }
  | .address text => number text s fun s =>
    let u := Map.unmap m.world s.stored s.kernel
    .next { s with address := s.value, stored := u.2.1, kernel := u.2.2, base := 0#64 }
  | .length text => number text s fun s => .next { s with length := s.value }
  | .mask text => number text s fun s => .next { s with mask := s.value }
  | .delay text => number text s fun s =>
    .next { s with value := ticks s.value, bus := m.bus.wait (ticks s.value).toNat s.bus }
  | .operation op text =>
    match op with
    | .read => call m op 0#64 s
    | .set | .bitSet => number text s fun s => call m op s.mask s
    | .clear | .bitClear | .write => number text s fun s => call m op 0#64 s
  | .test nonzero => if nonzero = decide (s.value = 0#64) then .done s else .next s
  | .flag => .next s
  | .menu => .next s
  | .other => .error s

/-- What a run comes to: it exits, or its behaviour is not defined. -/
inductive Outcome (σ β : Type) where
  | exit (status : Nat) (s : State σ β)
  | undefined

/-- The end, `Diminuto/bin/memtool.c:321-329`. -/
def finish (status : Nat) (s : State σ β) : Outcome σ β :=
  let u := Map.unmap m.world s.stored s.kernel
  .exit status { s with stored := u.2.1, kernel := u.2.2, base := 0#64 }

/-- The loop, `Diminuto/bin/memtool.c:163-319`. -/
def loop : List Opt → State σ β → Outcome σ β
  | [], s => finish m 0 s
  | o :: r, s =>
    match step m o s with
    | .undefined => .undefined
    | .error s => finish m 1 s
    | .done s => finish m 0 s
    | .next s => loop r s

/-- `main`, `Diminuto/bin/memtool.c:144-330`. -/
def main (opts : List Opt) (kernel : σ) (bus : β) : Outcome σ β :=
  loop m opts { value := 0, mask := 0, address := 0, length := 0, base := 0, stored := ⟨0, 0⟩, offset := 0, size := 0, kernel := kernel, bus := bus, out := [] }

end

end Diminuto.Memtool
