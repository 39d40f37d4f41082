import Verif.Fletcher

/-!
# Model of the generic read and write functions of the File Descriptor feature

Models `diminuto_fd_read_generic` and `diminuto_fd_write_generic`, and the inline functions on top of
them.  The kernel is a list of what it is going to do.  The functions
also return the system calls they made, for the specification.
-/

namespace Diminuto.Fd

/-- What a function comes to: it returns, it waits forever because the kernel has nothing more to say, or
memory outside of the buffer is touched. -/
inductive Outcome (α : Type)
  | done (a : α)
  | blocks
  | undefined
  deriving DecidableEq

/-- What the kernel has for a reader: bytes that arrived together, end of file, or an error. -/
inductive Source
  | data (bs : List Byte)
  | eof
  | error
  deriving DecidableEq

/-- The reply to a `read`. -/
inductive Reply
  | got (bs : List Byte)
  | eof
  | error
  deriving DecidableEq

/-- `read(2)` for `slack` bytes, `Diminuto/src/diminuto_fd.c:85`: bytes that are not asked for stay.
(A chunk of no bytes is returned as zero, like end of file.) -/
def sysRead (slack : Nat) : Source → Reply × List Source
  | .data bs =>
    if bs.length = 0 then (.eof, [])
    else if bs.length ≤ slack then (.got bs, [])
    else (.got (bs.take slack), [.data (bs.drop slack)])
  | .eof => (.eof, [])
  | .error => (.error, [])

/-- The kernel stores bytes through the pointer it was given (`Diminuto/src/diminuto_fd.c:85`). -/
def store (mem : List Byte) (at' : Nat) (bs : List Byte) : Option (List Byte) :=
  if at' + bs.length ≤ mem.length then some (mem.take at' ++ bs ++ mem.drop (at' + bs.length)) else none

/-- What a read function leaves behind. -/
structure Got where
  /-- The return value. -/
  ret : Int
  /-- The memory that the buffer pointer points to. -/
  mem : List Byte
  /-- The kernel afterwards. -/
  kernel : List Source
  /-- The system calls: bytes asked for, and the reply. -/
  calls : List (Nat × Reply)
  deriving DecidableEq

/-- Record a system call before the others. -/
def Got.before (c : Nat × Reply) (g : Got) : Got := { g with calls := c :: g.calls }

/-- Apply a function to the result, if there is one. -/
def Outcome.map {α β : Type} (f : α → β) : Outcome α → Outcome β
  | .done a => .done (f a)
  | .blocks => .blocks
  | .undefined => .undefined

/-- The loop of `diminuto_fd_read_generic`, `Diminuto/src/diminuto_fd.c:84-110`, with `bp` as an
offset; `min` is already cast to `ssize_t`.  Which error it is only matters for the log. -/
def readLoop (min : Int) : List Source → List Byte → Nat → Nat → Int → Outcome Got
  | [], mem, _, slack, total => if slack > 0 then .blocks else .done ⟨total, mem, [], []⟩
  | e :: k, mem, bp, slack, total =>
    if slack > 0 then
      let r := sysRead slack e
      match r.1 with
      | .eof => .done ⟨total, mem, r.2 ++ k, [(slack, .eof)]⟩
      | .error => .done ⟨if total = 0 then -1 else total, mem, r.2 ++ k, [(slack, .error)]⟩
      | .got bs =>
        match store mem bp bs with
        | none => .undefined
        | some mem =>
          let total := total + bs.length
          if total ≥ min ∨ bs.length = slack then
            .done ⟨total, mem, r.2 ++ k, [(slack, .got bs)]⟩
          else (readLoop min k mem (bp + bs.length) (slack - bs.length) total).map
            (Got.before (slack, .got bs))
    else .done ⟨total, mem, e :: k, []⟩

/-- `diminuto_fd_read_generic`, `Diminuto/src/diminuto_fd.c:74-112`.  (Once the slack is used up
the loop ends; `readLoop` looks at this right after the bytes have been stored.) -/
def readGeneric (k : List Source) (mem : List Byte) (min max : BitVec 64) : Outcome Got :=
  readLoop min.toInt k mem 0 max.toNat 0

/-- `diminuto_fd_read`, `Diminuto/inc/com/diag/diminuto/diminuto_fd.h:67-70`. -/
def read (k : List Source) (mem : List Byte) (size : BitVec 64) : Outcome Got := readGeneric k mem 1 size

/-- What the kernel is going to do with a writer: take at most so many bytes, take none, or fail. -/
inductive Sink
  | room (n : Nat)
  | zero
  | error
  deriving DecidableEq

/-- The reply to a `write`. -/
inductive Taken
  | took (n : Nat)
  | zero
  | error
  deriving DecidableEq

/-- `write(2)` of `slack` bytes, `Diminuto/src/diminuto_fd.c:125`. -/
def sysWrite (slack : Nat) : Sink → Taken
  | .room n => if n = 0 then .zero else .took (min n slack)
  | .zero => .zero
  | .error => .error

/-- What a write function leaves behind. -/
structure Put where
  /-- The return value. -/
  ret : Int
  /-- The bytes the kernel was given and took, in order. -/
  out : List Byte
  /-- The kernel afterwards. -/
  kernel : List Sink
  /-- The system calls: bytes offered, and the reply. -/
  calls : List (Nat × Taken)
  deriving DecidableEq

/-- Record a system call before the others. -/
def Put.before (c : Nat × Taken) (bs : List Byte) (p : Put) : Put :=
  { p with
    calls := c :: p.calls
    out := bs ++ p.out }

/-- The loop of `diminuto_fd_write_generic`, `Diminuto/src/diminuto_fd.c:124-150`. -/
def writeLoop (min : Int) (mem : List Byte) : List Sink → Nat → Nat → Int → Outcome Put
  | [], _, slack, total => if slack > 0 then .blocks else .done ⟨total, [], [], []⟩
  | e :: k, bp, slack, total =>
    if slack > 0 then
      match sysWrite slack e with
      | .zero => .done ⟨total, [], k, [(slack, .zero)]⟩
      | .error => .done ⟨if total = 0 then -1 else total, [], k, [(slack, .error)]⟩
      | .took n =>
        if bp + slack ≤ mem.length then
          let bs := (mem.drop bp).take n
          let total := total + n
          if total ≥ min then .done ⟨total, bs, k, [(slack, .took n)]⟩
          else (writeLoop min mem k (bp + n) (slack - n) total).map (Put.before (slack, .took n) bs)
        else .undefined
    else .done ⟨total, [], e :: k, []⟩

/-- `diminuto_fd_write_generic`, `Diminuto/src/diminuto_fd.c:114-152`. -/
def writeGeneric (k : List Sink) (mem : List Byte) (min max : BitVec 64) : Outcome Put :=
  writeLoop min.toInt mem k 0 max.toNat 0

/-- `diminuto_fd_write`, `Diminuto/inc/com/diag/diminuto/diminuto_fd.h:92-95`. -/
def write (k : List Sink) (mem : List Byte) (size : BitVec 64) : Outcome Put :=
  writeGeneric k mem size size

end Diminuto.Fd
