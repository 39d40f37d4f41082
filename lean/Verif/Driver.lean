import Verif.Section

/-!
# Model of the memory mapped driver

`Diminuto/drv/diminuto_mmdriver.c:148-345` and `Diminuto/drv/diminuto_kernel_datum.c`, in a kernel of 64 bits.  A datum, which is a union of words of 8, 16, 32 and 64 bits, is the list of its eight bytes, so that nothing depends on the order of bytes.
A register is memory: what is read is what was written last.
-/

namespace Diminuto.Driver

/-- The error numbers. -/
def EINTR : Int := 4
def EFAULT : Int := 14
def EINVAL : Int := 22

/-- An access: the address, the number of bytes, and whether it is a write. -/
structure Access where
  address : Nat
  size : Nat
  write : Bool
deriving DecidableEq

/-- `DIMINUTO_DATUM_ALIGNMENT`, `Diminuto/inc/com/diag/diminuto/diminuto_datum.h:49`, for a word of so many bytes. -/
def alignment (n : Nat) : Nat := n * 8 / 8 - 1

/-- The bytes of a word. -/
def word (mem : Nat → Byte) (address n : Nat) : List Byte := (List.range n).map fun i => mem (address + i)

/-- Memory with a word. -/
def store (mem : Nat → Byte) (address : Nat) (l : List Byte) : Nat → Byte := fun x => if address ≤ x then (l[x - address]?).getD (mem x) else mem x

/-- `DIMINUTO_KERNEL_GET`, `Diminuto/drv/diminuto_kernel_datum.c:23-30`, for a word of so many bytes: the value returned, the datum, and the access. -/
def getWord (mem : Nat → Byte) (address n : Nat) (datum : List Byte) : Int × List Byte × List Access :=
  if address &&& alignment n ≠ 0 then (-EINVAL, datum, [])
  else (0, word mem address n ++ datum.drop n, [⟨address, n, false⟩])

/-- `DIMINUTO_KERNEL_PUT`, `Diminuto/drv/diminuto_kernel_datum.c:32-39`. -/
def putWord (mem : Nat → Byte) (address n : Nat) (datum : List Byte) : Int × (Nat → Byte) × List Access :=
  if address &&& alignment n ≠ 0 then (-EINVAL, mem, [])
  else (0, store mem address (datum.take n), [⟨address, n, true⟩])

/-- `diminuto_kernel_get`, `Diminuto/drv/diminuto_kernel_datum.c:41-60`; the width may be anything, because it is copied from the application. -/
def get (mem : Nat → Byte) (address : Nat) (width : BitVec 32) (datum : List Byte) : Int × List Byte × List Access :=
  if width = 1#32 then getWord mem address 1 datum
  else if width = 2#32 then getWord mem address 2 datum
  else if width = 4#32 then getWord mem address 4 datum
  else if width = 8#32 then getWord mem address 8 datum
  else (-EINVAL, datum, [])

/-- `diminuto_kernel_put`, `Diminuto/drv/diminuto_kernel_datum.c:63-82`. -/
def put (mem : Nat → Byte) (address : Nat) (width : BitVec 32) (datum : List Byte) : Int × (Nat → Byte) × List Access :=
  if width = 1#32 then putWord mem address 1 datum
  else if width = 2#32 then putWord mem address 2 datum
  else if width = 4#32 then putWord mem address 4 datum
  else if width = 8#32 then putWord mem address 8 datum
  else (-EINVAL, mem, [])

/-- `diminuto_mmdriver_op_t`, `Diminuto/inc/com/diag/diminuto/diminuto_mmdriver.h:62-67`. -/
structure Op where
  offset : BitVec 64
  width : BitVec 32
  datum : List Byte
  mask : List Byte
deriving DecidableEq

/-- An operation that combines the first bytes of two data, and leaves the rest of the first: an assignment to one of the words of a union. -/
def combine (f : Byte → Byte → Byte) (n : Nat) (a b : List Byte) : List Byte := List.zipWith f (a.take n) (b.take n) ++ a.drop n

/-- `MMDRIVER_OPERATION_SET`, `Diminuto/drv/diminuto_mmdriver.c:171`, for a word of so many bytes: `tmp` then; `op` has what has been read in place of the datum. -/
def setWord (n : Nat) (op : Op) (tmp : List Byte) : List Byte := combine (· ||| ·) n tmp (combine (fun d m => d &&& ~~~ m) n op.datum op.mask)

/-- `MMDRIVER_OPERATION_CLEAR`, `Diminuto/drv/diminuto_mmdriver.c:207`. -/
def clearWord (n : Nat) (op : Op) (tmp : List Byte) : List Byte := combine (fun t d => d &&& ~~~ t) n tmp op.datum

/-- The commands, `Diminuto/inc/com/diag/diminuto/diminuto_mmdriver.h:78-99`, with the encoding of Linux for most processors: two bits for the direction, fourteen for the size of the structure, which is 32, eight for the type, eight for the number. -/
def READ : BitVec 32 := 0xc020e000#32
def WRITE : BitVec 32 := 0x4020e001#32
def SET : BitVec 32 := 0x4020e002#32
def CLEAR : BitVec 32 := 0x4020e003#32

/-- `_IOC_DIR(cmd) & _IOC_WRITE` and `_IOC_DIR(cmd) & _IOC_READ`. -/
def iocWrite (cmd : BitVec 32) : Bool := cmd >>> 30 &&& 1#32 ≠ 0#32
def iocRead (cmd : BitVec 32) : Bool := cmd >>> 30 &&& 2#32 ≠ 0#32

/-- The word that an operation that modifies one computes after it has read it, `Diminuto/drv/diminuto_mmdriver.c:188-196` and `:224-232`; nothing, if there is no such width. -/
def modify (cmd : BitVec 32) (op : Op) (tmp : List Byte) : Option (List Byte) :=
  let f := fun n => if cmd = SET then setWord n op tmp else clearWord n op tmp
  if op.width = 1#32 then some (f 1)
  else if op.width = 2#32 then some (f 2)
  else if op.width = 4#32 then some (f 4)
  else if op.width = 8#32 then some (f 8)
  else none

/-- The driver: where the registers are mapped, how many bytes they are, what is in memory, and the counters, `Diminuto/drv/diminuto_mmdriver.c:133-143`.  The counters are not limited. -/
structure Dev where
  base : Nat
  length : BitVec 64
  mem : Nat → Byte
  ioctls : Nat
  errors : Nat

/-- What an application passes: the command, the structure that the argument points to, and whether that can be read and written. -/
structure Arg where
  cmd : BitVec 32
  op : Op
  readable : Bool
  writable : Bool
deriving DecidableEq

/-- What the application sees: the value that is returned and what is copied to it; or that the behaviour is undefined.  The accesses are recorded in any case. -/
inductive Result where
  | undefined
  | done (rc : Int) (copied : Option Op) (accesses : List Access)
deriving DecidableEq

/-- The end of the I/O control, `Diminuto/drv/diminuto_mmdriver.c:331-335`. -/
def finish (d : Dev) (a : Arg) (op : Op) (rc : Int) (accesses : List Access) : Result × Dev :=
  if iocRead a.cmd then
    if a.writable then (.done rc (some op) accesses, d)
    else (.done (-EFAULT) none accesses, { d with errors := d.errors + 1 })
  else (.done rc none accesses, d)

/-- The second half of the operations that modify a word, `Diminuto/drv/diminuto_mmdriver.c:188-204` and `:224-240`; what has been read is in `op`. -/
def second (d : Dev) (a : Arg) (op : Op) (accesses : List Access) : Result × Dev :=
  match modify a.cmd op a.op.datum with
  | none => finish d a op (-EINVAL) accesses
  | some tmp =>
    let (rc, mem, more) := put d.mem (d.base + op.offset.toNat) op.width tmp
    finish { d with mem := mem } a op rc (accesses ++ more)

/-- The first half of the I/O control when the semaphore has been taken, `Diminuto/drv/diminuto_mmdriver.c:297-329`: the result, or, for the operations that modify a word, what is needed for the second half. -/
def first (d : Dev) (a : Arg) : (Result ⊕ (Op × List Access)) × Dev :=
  let d := { d with ioctls := d.ioctls + 1 }
  if iocWrite a.cmd = true ∧ a.readable = false then (.inl (.done (-EFAULT) none []), { d with errors := d.errors + 1 })
  else if iocWrite a.cmd = false then (.inl .undefined, d)
  else if d.length < a.op.offset then (.inl (.done (-EINVAL) none []), { d with errors := d.errors + 1 })
  else if a.cmd = READ then
    let (rc, datum, accesses) := get d.mem (d.base + a.op.offset.toNat) a.op.width a.op.datum
    let (r, d) := finish d a { a.op with datum := datum } rc accesses
    (.inl r, d)
  else if a.cmd = WRITE then
    let (rc, mem, accesses) := put d.mem (d.base + a.op.offset.toNat) a.op.width a.op.datum
    let (r, d) := finish { d with mem := mem } a a.op rc accesses
    (.inl r, d)
  else if a.cmd = SET ∨ a.cmd = CLEAR then
    let (rc, datum, accesses) := get d.mem (d.base + a.op.offset.toNat) a.op.width a.op.datum
    if rc ≠ 0 then
      let (r, d) := finish d a { a.op with datum := datum } rc accesses
      (.inl r, d)
    else (.inr ({ a.op with datum := datum }, accesses), d)
  else (.inl (.done (-EINVAL) none []), { d with errors := d.errors + 1 })

/-- `mmdriver_unlocked_ioctl` when the semaphore has been taken, `Diminuto/drv/diminuto_mmdriver.c:297-337`. -/
def ioctl (d : Dev) (a : Arg) : Result × Dev :=
  match first d a with
  | (.inl r, d) => (r, d)
  | (.inr (op, accesses), d) => second d a op accesses

/-- The same, step by step: another processor may do something between the read and the write of an operation that modifies a word.  The semaphore is that of `Verif/Section.lean`, in place of the mutex; an I/O control that gives up waiting because of a signal
(`down_interruptible`, `Diminuto/drv/diminuto_mmdriver.c:291-295`) is a section with `TRY` that has not been entered; the counter of errors is not changed then. -/
def body : Section.Body Dev Arg (Arg × Option (Op × List Access)) Result where
  init a := (a, none)
  step l d :=
    match l with
    | (a, none) =>
      match first d a with
      | (.inl r, d) => (.inr r, d)
      | (.inr x, d) => (.inl (a, some x), d)
    | (a, some (op, accesses)) =>
      let (r, d) := second d a op accesses
      (.inr r, d)

end Diminuto.Driver
