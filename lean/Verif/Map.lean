import Verif.Fletcher

/-!
# Model of the Map feature

`diminuto_map_map`, `diminuto_map_unmap` and `diminuto_map_minimum`, `Diminuto/src/diminuto_map.c:24-143`.  The system calls are arbitrary functions of a state.  Addresses and lengths have 64
bits.  Log messages and `errno` are left out.
-/

namespace Diminuto.Map

/-- The calls that are used: for the device `/dev/mem` and for the file `/proc/sys/vm/mmap_min_addr`.  `mmap(2)` is given a size, a descriptor and an offset, `fprintf(3)` the number that it
prints. -/
structure World (σ : Type) where
  open_ : σ → Int × σ
  mmap : BitVec 64 → Int → BitVec 64 → σ → Option (BitVec 64) × σ
  munmap : BitVec 64 → BitVec 64 → σ → Int × σ
  close : Int → σ → Int × σ
  getuid : σ → Nat
  geteuid : σ → Nat
  openmin : σ → Int × σ
  fdopen : Int → σ → Bool × σ
  fprintf : Int → BitVec 64 → σ → Int × σ
  fclose : Int → σ → Bool × σ

/-- What is stored through the pointers `startp` and `lengthp`. -/
structure Stored where
  start : BitVec 64
  length : BitVec 64
deriving DecidableEq, Repr

section
variable {σ : Type} (w : World σ) (pagesize : BitVec 31)

/-- `diminuto_map_map`, `Diminuto/src/diminuto_map.c:24-67`; `pagesize` is that of `getpagesize(2)`, a positive `int`, which is converted to 64 bits.  A result of zero is the null pointer. -/
def map (start length : BitVec 64) (s : σ) : BitVec 64 × Stored × σ :=
  let offset := start % pagesize.setWidth 64
  let address := start - offset
  let size := length + offset
  match w.open_ s with
  | (fd, s) =>
    if fd < 0 then (0#64, ⟨0#64, 0#64⟩, s)
    else match w.mmap size fd address s with
      | (none, s) => (0#64, ⟨0#64, 0#64⟩, (w.close fd s).2)
      | (some base, s) => (base + offset, ⟨base, size⟩, (w.close fd s).2)

/-- `diminuto_map_unmap`, `Diminuto/src/diminuto_map.c:69-83`. -/
def unmap (p : Stored) (s : σ) : Int × Stored × σ :=
  if p.length = 0#64 then (0, p, s)
  else match w.munmap p.start p.length s with
    | (rc, s) => if rc < 0 then (rc, p, s) else (rc, ⟨0#64, 0#64⟩, s)

/-- The end of `diminuto_map_minimum`, `Diminuto/src/diminuto_map.c:123-140`: `stream` is whether there is one. -/
def finish (result : Int) (stream : Bool) (fd : Int) (s : σ) : Int × σ :=
  match (if stream then
      match w.fclose fd s with
      | (false, s) => ((-4 : Int), fd, s)
      | (true, s) => (result, (-1 : Int), s)
    else (result, fd, s)) with
  | (result, fd, s) =>
    if fd < 0 then (result, s)
    else match w.close fd s with
      | (rc, s) => if rc < 0 then (-5, s) else (result, s)

/-- `diminuto_map_minimum`, `Diminuto/src/diminuto_map.c:85-143`. -/
def minimum (value : BitVec 64) (s : σ) : Int × σ :=
  if w.getuid s ≠ 0 ∧ w.geteuid s ≠ 0 then finish w (-1) false (-1) s
  else match w.openmin s with
    | (fd, s) =>
      if fd < 0 then finish w 0 false fd s
      else match w.fdopen fd s with
        | (false, s) => finish w (-2) false fd s
        | (true, s) =>
          match w.fprintf fd value s with
          | (rc, s) => if rc < 0 then finish w (-3) true fd s else finish w 0 true fd s

end

end Diminuto.Map
