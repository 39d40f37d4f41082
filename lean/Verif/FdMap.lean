import Verif.Fletcher

/-!
# Model of the table that maps descriptors to pointers, and of the expansion of paths

`diminuto_fd_map_alloc` and `diminuto_fd_map_ref`, `Diminuto/src/diminuto_fd.c:211-227` with `Diminuto/inc/com/diag/diminuto/diminuto_fd.h:157-187`, and `diminuto_fs_expand`,
`Diminuto/src/diminuto_fs.c:337-356`.  A table is the memory that `malloc(3)` has returned: the member `count` and as many pointers as there is room for.  Pointers and `size_t` have eight
bytes.  Undefined behaviour is `none`.
-/

namespace Diminuto.FdMap

/-- `diminuto_fd_map_t`, `Diminuto/inc/com/diag/diminuto/diminuto_fd.h:162-165`; `data` are the pointers for which there is memory. -/
structure Table where
  count : BitVec 64
  data : List (BitVec 64)
deriving DecidableEq, Repr

/-- `diminuto_fd_map_alloc`, `Diminuto/src/diminuto_fd.c:211-222`.  `malloc` gives, for a size, the pointers that happen to be in the memory behind the first eight bytes, if there is
memory.  The null pointer is dereferenced without a check. -/
def alloc (malloc : BitVec 64 → Option (List (BitVec 64))) (count : BitVec 64) : Option Table :=
  let size := count * 8#64
  match malloc (8#64 + size) with
  | none => none
  | some l =>
    if (8#64 + size).toNat < 8 then none
    else if l.length < size.toNat / 8 then none
    else some ⟨count, List.replicate (size.toNat / 8) 0#64 ++ l.drop (size.toNat / 8)⟩

/-- `diminuto_fd_map_ref`, `Diminuto/src/diminuto_fd.c:224-227`: the index of the pointer to which the result points, or nothing for the null pointer.  The descriptor, which is not
negative, is converted to 64 bits. -/
def ref (t : Table) (fd : BitVec 32) : Option Nat :=
  if 0 ≤ fd.toInt ∧ (fd.signExtend 64).toNat < t.count.toNat then some (fd.signExtend 64).toNat else none

/-- To load from where a result of `diminuto_fd_map_ref` points to, `*diminuto_fd_map_ref(mapp, fd)`. -/
def load (t : Table) (i : Nat) : Option (BitVec 64) := t.data[i]?

/-- To store there, `*diminuto_fd_map_ref(mapp, fd) = value`. -/
def store (t : Table) (i : Nat) (value : BitVec 64) : Option Table :=
  if i < t.data.length then some { t with data := t.data.set i value } else none

/-- `diminuto_fs_expand`, `Diminuto/src/diminuto_fs.c:337-356`: `real` is the string that `realpath(3)` gives for the path, `buffer` has at least `size` bytes.  The result is whether it
succeeds and the buffer; `strncpy(3)` fills the rest of the size with zeros. -/
def expand (real : Option (List Byte)) (buffer : List Byte) (size : Nat) : Bool × List Byte :=
  match real with
  | none => (false, buffer)
  | some expanded =>
    if size = 0 then (false, buffer)
    else
      let copied := expanded.take size ++ List.replicate (size - expanded.length) 0#8
      (true, copied.set (size - 1) 0#8 ++ buffer.drop size)

end Diminuto.FdMap
