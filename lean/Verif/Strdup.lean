import Verif.Buffer

/-!
# Model of copies of strings in buffers, of the report on a pool, and of the choice of the pool

Models the rest of `Diminuto/src/diminuto_buffer.c` and `Diminuto/src/diminuto_bufferpool.c`, on the state of `Buffer.lean`.  What may be read at a pointer to
characters is a list of bytes: to read beyond it is undefined, and so the result is `none`.  The characters are not in the buffer that is handed out, which
nobody holds.  What is written to the log is not modelled.
-/

namespace Diminuto.Strdup

open Diminuto.Buffer

/-- `strlen(3)`. -/
def strlen : List Byte → Option Nat
  | [] => none
  | b :: bs => if b = 0 then some 0 else (strlen bs).map (· + 1)

/-- `strnlen(3)`. -/
def strnlen : List Byte → Nat → Option Nat
  | _, 0 => some 0
  | [], _ + 1 => none
  | b :: bs, n + 1 => if b = 0 then some 0 else (strnlen bs n).map (· + 1)

/-- `strcpy(3)` to the payload of a buffer, from the `i`-th byte. -/
def strcpy (s : State) (ptr i : Nat) : List Byte → Option State
  | [] => none
  | b :: bs => (write s ptr i b).bind fun s => if b = 0 then some s else strcpy s ptr (i + 1) bs

/-- The rest of `strncpy(3)` after the nul: `n` nuls. -/
def pad (s : State) (ptr i : Nat) : Nat → Option State
  | 0 => some s
  | n + 1 => (write s ptr i 0).bind fun s => pad s ptr (i + 1) n

/-- `strncpy(3)` of `n` characters. -/
def strncpy (s : State) (ptr i : Nat) : List Byte → Nat → Option State
  | _, 0 => some s
  | [], _ + 1 => none
  | b :: bs, n + 1 => (write s ptr i b).bind fun s => if b = 0 then pad s ptr (i + 1) n else strncpy s ptr (i + 1) bs n

/-- `diminuto_buffer_strdup`, `Diminuto/src/diminuto_buffer.c:174-186`. -/
def strdup (sizes : List Nat) (s : State) (mem : List Byte) (nomalloc : Bool) (m : Option Nat) : Option (State × Nat) :=
  (strlen mem).bind fun length =>
    (get sizes s ((length + 1) % W) nomalloc m).bind fun sp =>
      if sp.2 ≠ 0 then (strcpy sp.1 sp.2 0 mem).map fun s => (s, sp.2) else some sp

/-- `diminuto_buffer_strndup`, `Diminuto/src/diminuto_buffer.c:188-201`. -/
def strndup (sizes : List Nat) (s : State) (mem : List Byte) (n : Nat) (nomalloc : Bool) (m : Option Nat) : Option (State × Nat) :=
  (strnlen mem n).bind fun length =>
    (get sizes s ((length + 1) % W) nomalloc m).bind fun sp =>
      if sp.2 ≠ 0 then (strncpy sp.1 sp.2 0 mem length).bind fun s => (write s sp.2 length 0).map fun s => (s, sp.2)
      else some sp

/-- The inner loop of `diminuto_buffer_pool_log`, `Diminuto/src/diminuto_bufferpool.c:125-127`, at most `fuel` times. -/
def countLoop (s : State) : Nat → Nat → Nat → Option Nat
  | 0, _, _ => none
  | fuel + 1, buffer, subcount =>
    if buffer ≠ 0 then (getHeader s buffer).bind fun next => countLoop s fuel next ((subcount + 1) % W) else some subcount

/-- The outer loop, `Diminuto/src/diminuto_bufferpool.c:123-134`, `n` being how many indices are left. -/
def logLoop (fuel : Nat) (sizes : List Nat) (s : State) : Nat → Nat → Nat → Option Nat
  | 0, _, total => some total
  | n + 1, item, total => (countLoop s fuel (s.pool item) 0).bind fun subcount =>
    let size := (sizes.getD item 0 + 8) % W
    logLoop fuel sizes s n (item + 1) ((total + (subcount * size) % W) % W)

/-- `diminuto_buffer_pool_log`, `Diminuto/src/diminuto_bufferpool.c:108-139`. -/
def log (fuel : Nat) (sizes : List Nat) (s : State) : Option Nat := logLoop fuel sizes s sizes.length 0 0

/-- A pool as the application gives it, `Diminuto/inc/com/diag/diminuto/diminuto_bufferpool.h:30-34`, by its number: its sizes, and the heads of its lists.  Zero is the pool of the
library. -/
structure Pools where
  sizes : Nat → List Nat
  /-- The array of the heads of each pool. -/
  heads : Nat → Nat → Nat
  /-- The pool to which `meta` points. -/
  active : Nat
  /-- The memory; its `pool` is not used. -/
  mem : State

/-- What the application does: it calls one of the functions of `Buffer.lean`, or `diminuto_buffer_set`. -/
inductive Act
  | op (o : Op)
  | set (p : Nat)

/-- A call.  `diminuto_buffer_set` is `Diminuto/src/diminuto_buffer.c:246-265`; its result is if the pool is one of the application. -/
def step (fuel : Nat) (q : Pools) : Act → Option (Pools × Nat)
  | .op o => (Buffer.step fuel (q.sizes q.active) { q.mem with pool := q.heads q.active } o).map fun sr =>
    ({ q with heads := upd q.heads q.active sr.1.pool, mem := sr.1 }, sr.2)
  | .set p => some ({ q with active := p }, if p ≠ 0 then 1 else 0)

/-- A history. -/
def run (fuel : Nat) (q : Pools) : List Act → Option (Pools × List Nat)
  | [] => some (q, [])
  | a :: as => (step fuel q a).bind fun qr => (run fuel qr.1 as).map fun t => (t.1, qr.2 :: t.2)

/-- At first the pool of the library is active, all pools are empty, and nothing is allocated. -/
def start (sizes : Nat → List Nat) : Pools := ⟨sizes, fun _ _ => 0, 0, Buffer.start⟩

end Diminuto.Strdup
