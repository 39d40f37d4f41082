/-!
# Model of the mapping of physical memory in the kernel, and of the loading and unloading of the driver

`Diminuto/drv/diminuto_kernel_map.c`, and `Diminuto/drv/diminuto_mmdriver.c:508-584`.  Addresses are natural numbers: nothing wraps around.
-/

namespace Diminuto.KernelMap

/-- `PAGE_SIZE`. -/
def PAGE : Nat := 4096

/-- The error numbers. -/
def EPERM : Int := 1
def EIO : Int := 5
def ENOMEM : Int := 12

/-- A region of physical memory that is in use: its first and its last address, `struct resource`. -/
structure Region where
  start : Nat
  last : Nat
deriving DecidableEq

/-- A mapping: where it is, and the physical memory. -/
structure Mapping where
  page : Nat
  address : Nat
  size : Nat
deriving DecidableEq

/-- What the kernel keeps: the regions in use, the mappings, the major numbers of the character devices, whether the miscellaneous device of the driver is registered, and whether there is its entry in the file system for processes. -/
structure Kernel where
  regions : List Region
  mappings : List Mapping
  majors : List Nat
  misc : Bool
  entry : Bool
deriving DecidableEq

/-- Two regions have an address in common. -/
def overlap (a b : Region) : Bool := a.start ≤ b.last && b.start ≤ a.last

/-- `request_mem_region`: the region, if it is not empty and none of it is in use. -/
def request (k : Kernel) (start n : Nat) : Option Region × Kernel :=
  let r : Region := ⟨start, start + n - 1⟩
  if n = 0 ∨ k.regions.any (overlap r) = true then (none, k) else (some r, { k with regions := r :: k.regions })

/-- `release_mem_region`: the kernel releases the region that has this first address and this number of bytes, and complains if there is none. -/
def release (k : Kernel) (start n : Nat) : Kernel := { k with regions := k.regions.filter fun r => ! (r.start = start && r.last + 1 = start + n) }

/-- `ioremap`: the address is that of a page in which nothing is mapped, if there is one; nothing otherwise. -/
def ioremap (k : Kernel) (choice : Option Nat) (address size : Nat) : Option Nat × Kernel :=
  match choice with
  | none => (none, k)
  | some page => (some page, { k with mappings := ⟨page, address, size⟩ :: k.mappings })

/-- `iounmap`. -/
def iounmap (k : Kernel) (page : Nat) : Kernel := { k with mappings := k.mappings.filter fun m => ! (m.page = page) }

/-- The variables to which pointers are passed: the region, the base and the page; null is `none`. -/
structure Vars where
  region : Option Region
  base : Option Nat
  page : Option Nat
deriving DecidableEq

/-- `release_mem_region((*regionpp)->start, (*regionpp)->end - (*regionpp)->start)`, `Diminuto/drv/diminuto_kernel_map.c:79` and `:99`. -/
def free (k : Kernel) (r : Region) : Kernel := release k r.start (r.last - r.start)

/-- `diminuto_kernel_map`, `Diminuto/drv/diminuto_kernel_map.c:21-87`, with a name and with pointers to the page and the base, as the driver calls it; `exclusive` is whether the pointer to the region is not null.  The choice is what `ioremap` returns. -/
def map (k : Kernel) (v : Vars) (start length : Nat) (exclusive align : Bool) (choice : Option Nat) : Int × Kernel × Vars :=
  let offset := if align then start % PAGE else 0
  let address := start - offset
  let size := length + offset
  let (granted, k, v) :=
    if exclusive then
      match request k start length with
      | (none, k) => (false, k, { v with region := none })
      | (some r, k) => (true, k, { v with region := some r })
    else (true, k, v)
  let (rc, k, v) :=
    if granted then
      match ioremap k choice address size with
      | (none, k) => (-ENOMEM, k, { v with page := none })
      | (some page, k) => (0, k, { v with page := some page, base := some (page + offset) })
    else (-EPERM, k, v)
  let k :=
    if rc = 0 then k
    else
      match exclusive, v.region with
      | true, some r => free k r
      | _, _ => k
  (rc, k, v)

/-- `diminuto_kernel_unmap`, `Diminuto/drv/diminuto_kernel_map.c:90-104`. -/
def unmap (k : Kernel) (v : Vars) (exclusive : Bool) : Kernel × Vars :=
  let (k, v) :=
    match v.page with
    | some page => (iounmap k page, { v with page := none })
    | none => (k, v)
  match exclusive, v.region with
  | true, some r => (free k r, { v with region := none })
  | _, _ => (k, v)

/-- The parameters of the driver, `Diminuto/drv/diminuto_mmdriver.c:123-127`. -/
structure Params where
  start : Nat
  length : Nat
  exclusive : Bool
  major : Nat
deriving DecidableEq

/-- What the kernel answers: the mapping, the registration of the device (zero, or an error number less than zero), and whether the entry has been created. -/
structure Answers where
  page : Option Nat
  register : Int
  entry : Bool
deriving DecidableEq

/-- `major ? register_chrdev(…) : misc_register(…)` when it succeeds. -/
def register (k : Kernel) (major : Nat) : Kernel := if major ≠ 0 then { k with majors := major :: k.majors } else { k with misc := true }

/-- `unregister_chrdev(major, name)`. -/
def unregister (k : Kernel) (major : Nat) : Kernel := { k with majors := k.majors.filter (· ≠ major) }

/-- `misc_deregister`. -/
def deregister (k : Kernel) : Kernel := { k with misc := false }

/-- `mmdriver_init`, `Diminuto/drv/diminuto_mmdriver.c:508-566`. -/
def init (p : Params) (ans : Answers) (k : Kernel) : Int × Kernel × Vars :=
  let (rc, k, v) := map k ⟨none, none, none⟩ p.start p.length p.exclusive true ans.page
  if rc ≠ 0 then (rc, k, v)
  else if ans.register ≠ 0 then
    let (k, v) := unmap k v p.exclusive
    (ans.register, k, v)
  else
    let k := register k p.major
    if ans.entry = false then
      let k := unregister k p.major
      let (k, v) := unmap k v p.exclusive
      (-EIO, k, v)
    else (0, { k with entry := true }, v)

/-- `mmdriver_exit`, `Diminuto/drv/diminuto_mmdriver.c:568-584`. -/
def exit (p : Params) (k : Kernel) (v : Vars) : Kernel × Vars :=
  let k := { k with entry := false }
  let k := if p.major ≠ 0 then unregister k p.major else deregister k
  unmap k v p.exclusive

end Diminuto.KernelMap
