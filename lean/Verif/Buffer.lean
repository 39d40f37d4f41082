import Verif.Fletcher

/-!
# Model of the Buffer and Buffer Pool features

Models `Diminuto/src/diminuto_bufferpool.c`, `Diminuto/src/diminuto_bufferpool.h` and the
`<stdlib.h>`-like functions of `Diminuto/src/diminuto_buffer.c` for a 64-bit machine.  Addresses and sizes are
natural numbers; arithmetic on sizes is modulo `2 ^ 64`.  A buffer and its payload are named by the address of
the buffer (`containerof`, and the header has eight bytes,
`Diminuto/src/diminuto_buffer.h:36-43`); zero is the null pointer.  What `malloc` returns is an argument.  The
result `none` is undefined behaviour: an access outside of an allocated block, or `free` of what is
not allocated; or a loop that does not end within the given time.  Every public function is a critical section, or
(`realloc`, `calloc`) is made of such and of accesses to buffers that its caller holds, so that the
calls of several threads form a sequence.
-/

namespace Diminuto.Buffer

/-- One more than the greatest `size_t`. -/
abbrev W : Nat := 2 ^ 64

/-- The memory: the heads of the linked lists (`pool`), the sizes of the blocks allocated from the heap, the header of
every block, and the bytes of its payload.  The union of index and pointer in the header
(`Diminuto/src/diminuto_buffer.h:38-41`) is one number. -/
structure State where
  pool : Nat → Nat
  block : Nat → Option Nat
  header : Nat → Nat
  content : Nat → Nat → Byte

/-- Assignment to one element. -/
def upd {α : Type} (f : Nat → α) (i : Nat) (x : α) : Nat → α := fun j => if j = i then x else f j

/-- Reading a header: it has to be within an allocated block. -/
def getHeader (s : State) (a : Nat) : Option Nat :=
  match s.block a with
  | some n => if 8 ≤ n then some (s.header a) else none
  | none => none

/-- Writing a header. -/
def setHeader (s : State) (a x : Nat) : Option State :=
  match s.block a with
  | some n => if 8 ≤ n then some { s with header := upd s.header a x } else none
  | none => none

/-- The bytes up to `n` of the payload of `a` may be accessed. -/
def inPayload (s : State) (a n : Nat) : Bool :=
  match s.block a with
  | some k => n = 0 ∨ n + 8 ≤ k
  | none => false

/-- `malloc`: null, or a block that is not allocated yet; its bytes are what they happen to be. -/
def heapMalloc (s : State) (size : Nat) : Option Nat → Option (State × Nat)
  | none => some (s, 0)
  | some a => if a = 0 ∨ (s.block a).isSome then none else some ({ s with block := upd s.block a (some size) }, a)

/-- `free`. -/
def heapFree (s : State) (a : Nat) : Option State :=
  if (s.block a).isSome then some { s with block := upd s.block a none } else none

/-- The loop of `buffer_pool_hash`, `Diminuto/src/diminuto_bufferpool.h:51-53`; the list is what is left of the sizes. -/
def hashLoop (requested : Nat) : List Nat → Nat → Nat
  | [], item => item
  | x :: xs, item => if x < requested then hashLoop requested xs (item + 1) else item

/-- `buffer_pool_hash`, `Diminuto/src/diminuto_bufferpool.h:46-60`: the index, which is returned as an
`unsigned int`, and the actual size. -/
def hash (sizes : List Nat) (requested : Nat) : Nat × Nat :=
  let item := hashLoop requested sizes 0
  let actual := if item < sizes.length then sizes.getD item 0 else requested
  (item % 2 ^ 32, (actual + 8) % W)

/-- `buffer_pool_effective`, `Diminuto/src/diminuto_bufferpool.h:70-73`. -/
def effective (sizes : List Nat) (item : Nat) : Nat :=
  if item < sizes.length then (sizes.getD item 0 + 8) % W else item

/-- `buffer_pool_isexternal`, `Diminuto/src/diminuto_bufferpool.h:166-169`. -/
def isExternal (sizes : List Nat) (item : Nat) : Bool := item ≥ sizes.length

/-- `buffer_pool_malloc`, `Diminuto/src/diminuto_bufferpool.h:95-108`. -/
def poolMalloc (s : State) (size : Nat) (nomalloc : Bool) (m : Option Nat) : Option (State × Nat) :=
  if ¬ nomalloc then heapMalloc s size m else some (s, 0)

/-- `buffer_pool_get`, `Diminuto/src/diminuto_bufferpool.h:117-126`. -/
def poolGet (s : State) (item : Nat) : Option (State × Nat) :=
  let buffer := s.pool item
  if buffer ≠ 0 then (getHeader s buffer).map fun next => ({ s with pool := upd s.pool item next }, buffer)
  else some (s, buffer)

/-- `buffer_pool_put`, `Diminuto/src/diminuto_bufferpool.h:135-139`. -/
def poolPut (s : State) (buffer item : Nat) : Option State :=
  (setHeader s buffer (s.pool item)).map fun s => { s with pool := upd s.pool item buffer }

/-- `buffer_pool_init`, `Diminuto/src/diminuto_bufferpool.h:151-156`. -/
def poolInit (sizes : List Nat) (s : State) (buffer item actual : Nat) : Option State :=
  setHeader s buffer (if item < sizes.length then item else actual)

/-- The choice in `diminuto_buffer_pool_get`, `Diminuto/src/diminuto_bufferpool.c:32-38`. -/
def getBuffer (sizes : List Nat) (s : State) (item actual : Nat) (nomalloc : Bool) (m : Option Nat) :
    Option (State × Nat) :=
  if isExternal sizes item then poolMalloc s actual nomalloc m
  else if s.pool item = 0 then poolMalloc s actual nomalloc m
  else poolGet s item

/-- `diminuto_buffer_pool_get`, `Diminuto/src/diminuto_bufferpool.c:18-45`; `diminuto_buffer_malloc`,
`Diminuto/src/diminuto_buffer.c:66-89`, does the same on the active pool. -/
def get (sizes : List Nat) (s : State) (size : Nat) (nomalloc : Bool) (m : Option Nat) : Option (State × Nat) :=
  if size = 0 then some (s, 0)
  else
    let item := (hash sizes size).1
    let actual := (hash sizes size).2
    (getBuffer sizes s item actual nomalloc m).bind fun sb =>
      if sb.2 ≠ 0 then (poolInit sizes sb.1 sb.2 item actual).map fun s => (s, sb.2) else some (sb.1, 0)

/-- `diminuto_buffer_pool_put`, `Diminuto/src/diminuto_bufferpool.c:47-63`; `diminuto_buffer_free`,
`Diminuto/src/diminuto_buffer.c:91-106`, does the same on the active pool. -/
def put (sizes : List Nat) (s : State) (ptr : Nat) : Option State :=
  if ptr ≠ 0 then
    (getHeader s ptr).bind fun item => if isExternal sizes item then heapFree s ptr else poolPut s ptr item
  else some s

/-- The inner loop of `diminuto_buffer_pool_free`, `Diminuto/src/diminuto_bufferpool.c:73-75`, at most `fuel` times. -/
def freeList (item : Nat) : Nat → State → Option State
  | 0, _ => none
  | fuel + 1, s => (poolGet s item).bind fun sb =>
    if sb.2 ≠ 0 then (heapFree sb.1 sb.2).bind fun s => freeList item fuel s else some sb.1

/-- The outer loop of `diminuto_buffer_pool_free`, `Diminuto/src/diminuto_bufferpool.c:72-76`, `n` being how
many indices are left. -/
def freeLoop (fuel : Nat) : Nat → Nat → State → Option State
  | 0, _, s => some s
  | n + 1, item, s => (freeList item fuel s).bind fun s => freeLoop fuel n (item + 1) s

/-- `diminuto_buffer_pool_free`, `Diminuto/src/diminuto_bufferpool.c:65-77`. -/
def fini (fuel : Nat) (sizes : List Nat) (s : State) : Option State := freeLoop fuel sizes.length 0 s

/-- The loop of `diminuto_buffer_pool_prealloc`, `Diminuto/src/diminuto_bufferpool.c:95-102`; the list is what `malloc`
will return, and null after that. -/
def preallocLoop (item actual : Nat) : Nat → List (Option Nat) → Nat → State → Option (State × Nat)
  | 0, _, total, s => some (s, total)
  | n + 1, ms, total, s => (poolMalloc s actual false ms.head?.join).bind fun sb =>
    if sb.2 = 0 then some (sb.1, total)
    else (poolPut sb.1 sb.2 item).bind fun s => preallocLoop item actual n ms.tail ((total + actual) % W) s

/-- `diminuto_buffer_pool_prealloc`, `Diminuto/src/diminuto_bufferpool.c:79-106`. -/
def prealloc (sizes : List Nat) (s : State) (nmemb size : Nat) (ms : List (Option Nat)) : Option (State × Nat) :=
  if size = 0 then some (s, 0)
  else if nmemb = 0 then some (s, 0)
  else if isExternal sizes (hash sizes size).1 then some (s, 0)
  else preallocLoop (hash sizes size).1 (hash sizes size).2 nmemb ms 0 s

/-- `memcpy` of `n` bytes from one payload to another. -/
def copy (s : State) (to fr n : Nat) : Option State :=
  if inPayload s to n ∧ inPayload s fr n then
    some { s with content := upd s.content to fun i => if i < n then s.content fr i else s.content to i }
  else none

/-- `memset` of `n` bytes to zero. -/
def zero (s : State) (to n : Nat) : Option State :=
  if inPayload s to n then
    some { s with content := upd s.content to fun i => if i < n then 0 else s.content to i }
  else none

/-- `diminuto_buffer_realloc`, `Diminuto/src/diminuto_buffer.c:108-150`. -/
def realloc (sizes : List Nat) (s : State) (ptr size : Nat) (nomalloc : Bool) (m : Option Nat) : Option (State × Nat) :=
  if ptr = 0 then get sizes s size nomalloc m
  else if size = 0 then (put sizes s ptr).map fun s => (s, 0)
  else
    (getHeader s ptr).bind fun item =>
      let actual := effective sizes item
      let requested := (hash sizes size).2
      if actual = requested then some (s, ptr)
      else
        (get sizes s size nomalloc m).bind fun sp =>
          (if sp.2 ≠ 0 then
            let length := (actual + W - 8) % W
            copy sp.1 sp.2 ptr (if size < length then size else length)
          else some sp.1).bind fun s => (put sizes s ptr).map fun s => (s, sp.2)

/-- `diminuto_buffer_calloc`, `Diminuto/src/diminuto_buffer.c:152-168`. -/
def calloc (sizes : List Nat) (s : State) (nmemb size : Nat) (nomalloc : Bool) (m : Option Nat) : Option (State × Nat) :=
  let length := (nmemb * size) % W
  (get sizes s length nomalloc m).bind fun sp =>
    if sp.2 ≠ 0 then (zero sp.1 sp.2 length).map fun s => (s, sp.2) else some sp

/-- The application writes a byte. -/
def write (s : State) (ptr i : Nat) (b : Byte) : Option State :=
  if inPayload s ptr (i + 1) then some { s with content := upd s.content ptr (upd (s.content ptr) i b) } else none

/-- What the application does. -/
inductive Op
  | malloc (size : Nat) (nomalloc : Bool) (m : Option Nat)
  | free (ptr : Nat)
  | realloc (ptr size : Nat) (nomalloc : Bool) (m : Option Nat)
  | calloc (nmemb size : Nat) (nomalloc : Bool) (m : Option Nat)
  | prealloc (nmemb size : Nat) (ms : List (Option Nat))
  | fini
  | write (ptr i : Nat) (b : Byte)

/-- A call, and what it returns (zero if nothing). -/
def step (fuel : Nat) (sizes : List Nat) (s : State) : Op → Option (State × Nat)
  | .malloc size nm m => get sizes s size nm m
  | .free ptr => (put sizes s ptr).map fun s => (s, 0)
  | .realloc ptr size nm m => realloc sizes s ptr size nm m
  | .calloc n size nm m => calloc sizes s n size nm m
  | .prealloc n size ms => prealloc sizes s n size ms
  | .fini => (fini fuel sizes s).map fun s => (s, 0)
  | .write ptr i b => (write s ptr i b).map fun s => (s, 0)

/-- A history. -/
def run (fuel : Nat) (sizes : List Nat) (s : State) : List Op → Option (State × List Nat)
  | [] => some (s, [])
  | o :: os => (step fuel sizes s o).bind fun sr => (run fuel sizes sr.1 os).map fun t => (t.1, sr.2 :: t.2)

/-- An empty pool (`Diminuto/src/diminuto_buffer.c:58`) and a heap that has nothing of ours. -/
def start : State := ⟨fun _ => 0, fun _ => none, fun _ => 0, fun _ _ => 0⟩

/-- The sizes of the pool of the library, `Diminuto/src/diminuto_buffer.c:45-56`. -/
def POOL : List Nat := [8, 16, 32, 64, 128, 256, 512, 1024, 2048, 4096]

end Diminuto.Buffer
