import Verif.List
import Verif.Fletcher

/-!
# Model of the Scatter/Gather feature

Models `Diminuto/src/diminuto_scattergather.c` and the inline functions of
`Diminuto/inc/com/diag/diminuto/diminuto_scattergather.h` on the model of the List feature: a pool, a
record and a segment are each a list node.  The data pointer of a segment is the address of a buffer, which is a
number here, and the buffer is its length field and its payload bytes.  What `diminuto_buffer_malloc`,
`writev`, `readv`, `sendmsg` and `recvmsg` do is an argument.  The result `none` is undefined
behaviour: a null or dangling pointer followed, a buffer freed that is not allocated, bytes outside of the
payload transferred, or a loop that does not end.  The mutex is left out, as is logging, and `alloca` never
fails.
-/

namespace Diminuto.ScatterGather

open Diminuto.DList

/-- `diminuto_scattergather_buffer_t`,
`Diminuto/inc/com/diag/diminuto/diminuto_scattergather.h:133-158`; as many payload bytes as were asked for. -/
structure Buffer where
  length : BitVec 64
  payload : List Byte
  deriving DecidableEq

/-- The memory: the nodes, their data pointers (`none` is null), and the buffers that are allocated. -/
structure State (N : Nat) where
  heap : Heap N
  data : Node N → Option Nat
  bufs : Nat → Option Buffer

variable {N : Nat}

/-- `diminuto_list_dataset`, `Diminuto/inc/com/diag/diminuto/diminuto_list.h:333-336`. -/
def dataset (s : State N) (nodep : Node N) (datap : Option Nat) : State N :=
  { s with data := fun x => if x = nodep then datap else s.data x }

/-- `diminuto_list_nullinit`, `Diminuto/inc/com/diag/diminuto/diminuto_list.h:353-355`. -/
def nullinit (s : State N) (nodep : Node N) : State N :=
  dataset { s with heap := DList.init s.heap nodep } nodep none

/-- Allocating a buffer, `diminuto_buffer_malloc`, `Diminuto/src/diminuto_buffer.c:66-89`: nothing if the
size is zero; otherwise `m` says whether it fails, and if not the address, which may not be of
something allocated, and what the bytes happen to be.  The header is the first eight bytes, and a buffer
is never smaller. -/
def bufferMalloc (s : State N) (size : BitVec 64) (m : Option (Nat × (Nat → Byte))) :
    Option (State N × Option Nat) :=
  if size = 0 then some (s, none)
  else
    match m with
    | none => some (s, none)
    | some (b, junk) =>
      if s.bufs b = none then
        some ({ s with bufs := fun x =>
          if x = b then some ⟨0, (List.range (size.toNat - 8)).map junk⟩ else s.bufs x }, some b)
      else none

/-- `diminuto_buffer_free`, `Diminuto/src/diminuto_buffer.c:91-106`. -/
def bufferFree (s : State N) (ptr : Option Nat) : Option (State N) :=
  match ptr with
  | none => some s
  | some b =>
    if s.bufs b = none then none
    else some { s with bufs := fun x => if x = b then none else s.bufs x }

/-- `bp->length = size`. -/
def lengthSet (s : State N) (bp : Option Nat) (size : BitVec 64) : Option (State N) :=
  bp.bind fun b => (s.bufs b).bind fun x =>
    some { s with bufs := fun y => if y = b then some { x with length := size } else s.bufs y }

/-- `diminuto_scattergather_pool_get`, `Diminuto/src/diminuto_scattergather.c:47-56`. -/
def poolGet (s : State N) (pp : Node N) : Option (State N × Option (Node N)) :=
  (DList.pop s.heap pp).map fun (h, np) => ({ s with heap := h }, np)

/-- `diminuto_scattergather_pool_put`, `Diminuto/src/diminuto_scattergather.c:58-63`; and what
`diminuto_scattergather_pool_populate`, lines 65-76, does with each node. -/
def poolPut (s : State N) (pp np : Node N) : Option (State N) :=
  let s := nullinit s np
  (DList.enqueue s.heap pp np).map fun h => { s with heap := h }

/-- `diminuto_scattergather_pool_fini`, `Diminuto/src/diminuto_scattergather.c:38-45`. -/
def poolFini (pp : Node N) : Nat → State N → Option (State N)
  | 0, _ => none
  | fuel + 1, s =>
    match DList.head s.heap pp with
    | none => some s
    | some np => (DList.remove s.heap np).bind fun h => poolFini pp fuel { s with heap := h }

/-- `diminuto_scattergather_segment_allocate`, `Diminuto/src/diminuto_scattergather.c:82-109`; the
header has eight bytes. -/
def segmentAllocate (s : State N) (pp : Node N) (size : BitVec 64) (m : Option (Nat × (Nat → Byte))) :
    Option (State N × Option (Node N)) :=
  (bufferMalloc s (8 + size) m).bind fun (s, bp) =>
  match bp with
  | none => some (s, none)
  | some b =>
    (poolGet s pp).bind fun (s, sp) =>
    match sp with
    | none => (bufferFree s (some b)).map fun s => (s, none)
    | some sp => (lengthSet s (some b) size).map fun s => (dataset s sp (some b), some sp)

/-- `diminuto_scattergather_segment_fini` and `diminuto_scattergather_record_fini`,
`Diminuto/inc/com/diag/diminuto/diminuto_scattergather.h:282-284,363-365`. -/
def nodeFini (s : State N) (sp : Node N) : Option (State N) :=
  (DList.remove s.heap sp).map fun h => dataset { s with heap := h } sp none

/-- `diminuto_scattergather_segment_free`,
`Diminuto/inc/com/diag/diminuto/diminuto_scattergather.h:338-342`. -/
def segmentFree (s : State N) (pp sp : Node N) : Option (State N) :=
  (bufferFree s (s.data sp)).bind fun s =>
  (nodeFini s sp).bind fun s => poolPut s pp sp

/-- `diminuto_scattergather_record_segment_free`,
`Diminuto/inc/com/diag/diminuto/diminuto_scattergather.h:528-531`. -/
def recordSegmentFree (s : State N) (pp sp : Node N) : Option (State N) :=
  (DList.remove s.heap sp).bind fun h => segmentFree { s with heap := h } pp sp

/-- `diminuto_scattergather_record_segments_free`, `Diminuto/src/diminuto_scattergather.c:192-201`. -/
def segmentsFree (pp rp : Node N) : Nat → State N → Option (State N)
  | 0, _ => none
  | fuel + 1, s =>
    match DList.head s.heap rp with
    | none => some s
    | some sp => (recordSegmentFree s pp sp).bind fun s => segmentsFree pp rp fuel s

/-- `diminuto_scattergather_record_free`,
`Diminuto/inc/com/diag/diminuto/diminuto_scattergather.h:391-393`. -/
def recordFree (s : State N) (pp rp : Node N) : Option (State N) :=
  (segmentsFree pp rp (N + 1) s).bind fun s =>
  (nodeFini s rp).bind fun s => poolPut s pp rp

/-- `diminuto_scattergather_record_segment_next`,
`Diminuto/inc/com/diag/diminuto/diminuto_scattergather.h:508-510`. -/
def segmentNext (h : Heap N) (sp : Node N) : Option (Node N) :=
  if h.next sp = h.root sp then none else some (h.next sp)

/-- The segments that a loop visits whose body changes no links, `for (sp = head(rp); sp != 0; sp = next(sp))`,
`Diminuto/src/diminuto_scattergather.c:120,132,172`. -/
def walk (h : Heap N) : Nat → Option (Node N) → Option (List (Node N))
  | _, none => some []
  | 0, some _ => none
  | fuel + 1, some sp => (walk h fuel (segmentNext h sp)).map fun l => sp :: l

/-- The segments of a record, in the order in which a loop visits them. -/
def segments (s : State N) (rp : Node N) : Option (List (Node N)) := walk s.heap N (DList.head s.heap rp)

/-- `diminuto_scattergather_record_enumerate`, `Diminuto/src/diminuto_scattergather.c:115-125`. -/
def enumerate (s : State N) (rp : Node N) : Option (BitVec 64) :=
  (segments s rp).map fun l => l.foldl (fun nn _ => nn + 1) 0

/-- The body of the loop of `diminuto_scattergather_record_measure`,
`Diminuto/src/diminuto_scattergather.c:132-136`. -/
def measureLoop (s : State N) : List (Node N) → BitVec 64 → Option (BitVec 64)
  | [], ll => some ll
  | sp :: l, ll =>
    match s.data sp with
    | none => measureLoop s l ll
    | some b => (s.bufs b).bind fun x => measureLoop s l (ll + x.length)

/-- `diminuto_scattergather_record_measure`, `Diminuto/src/diminuto_scattergather.c:127-139`. -/
def measure (s : State N) (rp : Node N) : Option (BitVec 64) :=
  (segments s rp).bind fun l => measureLoop s l 0

/-- The loop of `diminuto_scattergather_record_vectorize`,
`Diminuto/src/diminuto_scattergather.c:172-187`: the vector is a list of buffers whose payload is meant, and
lengths; null is `some none`. -/
def vectorizeLoop (s : State N) (nn : BitVec 64) :
    List (Node N) → BitVec 64 → List (Nat × BitVec 64) → Option (Option (List (Nat × BitVec 64)))
  | [], _, va => some (some va)
  | sp :: l, ii, va =>
    if ii < nn then
      (s.data sp).bind fun b => (s.bufs b).bind fun x => vectorizeLoop s nn l (ii + 1) (va ++ [(b, x.length)])
    else some none

/-- `diminuto_scattergather_record_vectorize`, `Diminuto/src/diminuto_scattergather.c:167-190`. -/
def vectorize (s : State N) (rp : Node N) (nn : BitVec 64) : Option (Option (List (Nat × BitVec 64))) :=
  (segments s rp).bind fun l => vectorizeLoop s nn l 0 []

/-- What `writev` or `sendmsg` takes from memory, given that it takes everything. -/
def gather (s : State N) : List (Nat × BitVec 64) → Option (List Byte)
  | [] => some []
  | (b, len) :: va =>
    (s.bufs b).bind fun x =>
    if len.toNat ≤ x.payload.length then (gather s va).map fun d => x.payload.take len.toNat ++ d else none

/-- What `readv` or `recvmsg` does to memory, having the bytes `d`. -/
def scatter : State N → List (Nat × BitVec 64) → List Byte → Option (State N)
  | s, [], _ => some s
  | s, (b, len) :: va, d =>
    (s.bufs b).bind fun x =>
    let put := d.take len.toNat
    if put.length ≤ x.payload.length then
      scatter { s with bufs := fun y =>
        if y = b then some { x with payload := put ++ x.payload.drop put.length } else s.bufs y } va
        (d.drop len.toNat)
    else none

/-- How many bytes a vector has room for. -/
def room (va : List (Nat × BitVec 64)) : Nat := (va.map fun v => v.2.toNat).sum

/-- `DIMINUTO_SCATTERGATHER_MAXIMUM`,
`Diminuto/inc/com/diag/diminuto/diminuto_scattergather.h:120-122`: `UIO_MAXIOV`. -/
def MAXIMUM : BitVec 64 := 1024

/-- `diminuto_scattergather_record_write`, `Diminuto/src/diminuto_scattergather.c:219-241` (`total` is -1), and
`diminuto_scattergather_record_send_generic`, lines 267-291 (`total` is 0): the value returned and the
bytes that are taken.  `k` is what `writev` or `sendmsg` does: it fails, or takes this many bytes if
there are as many. -/
def output (total : Int) (s : State N) (rp : Node N) (k : Option Nat) : Option (Int × List Byte) :=
  (enumerate s rp).bind fun nn =>
  if ¬ (0 < nn ∧ nn ≤ MAXIMUM) then some (total, [])
  else
    (vectorize s rp nn).bind fun vp =>
    match vp with
    | none => some (total, [])
    | some va =>
      (gather s va).bind fun d =>
      match k with
      | none => some (-1, [])
      | some k => some ((d.take k).length, d.take k)

/-- `diminuto_scattergather_record_read`, `Diminuto/src/diminuto_scattergather.c:243-265` (`total` is -1), and
`diminuto_scattergather_record_receive_generic`, lines 333-357 (`total` is 0).  `d` is what `readv` or
`recvmsg` has: it fails, or has these bytes, of which it leaves out those there is no room for. -/
def input (total : Int) (s : State N) (rp : Node N) (d : Option (List Byte)) : Option (State N × Int) :=
  (enumerate s rp).bind fun nn =>
  if ¬ (0 < nn ∧ nn ≤ MAXIMUM) then some (s, total)
  else
    (vectorize s rp nn).bind fun vp =>
    match vp with
    | none => some (s, total)
    | some va =>
      match d with
      | none => some (s, -1)
      | some d => (scatter s va (d.take (room va))).map fun s => (s, (d.take (room va)).length)

/-- The calls. -/
inductive Op (N : Nat)
  | put (pp np : Node N)
  | poolFini (pp : Node N)
  | segmentAllocate (pp : Node N) (size : BitVec 64) (m : Option (Nat × (Nat → Byte)))
  | recordAllocate (pp : Node N)
  | segmentFree (pp sp : Node N)
  | recordSegmentFree (pp sp : Node N)
  | segmentsFree (pp rp : Node N)
  | recordFree (pp rp : Node N)
  | append (rp sp : Node N)
  | prepend (rp sp : Node N)
  | insert (op sp : Node N)
  | replace (op sp : Node N)
  | remove (sp : Node N)
  | setLength (sp : Node N) (ll : BitVec 64)
  | fill (sp : Node N) (d : List Byte)
  | enumerate (rp : Node N)
  | measure (rp : Node N)
  | write (rp : Node N) (k : Option Nat)
  | send (rp : Node N) (k : Option Nat)
  | read (rp : Node N) (d : Option (List Byte))
  | receive (rp : Node N) (d : Option (List Byte))

/-- What a call returns, and what it puts out. -/
inductive Result (N : Nat)
  | nothing
  | node (np : Option (Node N))
  | size (n : BitVec 64)
  | io (total : Int) (d : List Byte)
  deriving DecidableEq

/-- The application writing to the payload of a segment. -/
def fill (s : State N) (sp : Node N) (d : List Byte) : Option (State N) :=
  (s.data sp).bind fun b => (s.bufs b).bind fun x =>
    if d.length = x.payload.length then
      some { s with bufs := fun y => if y = b then some { x with payload := d } else s.bufs y }
    else none

/-- A list operation. -/
def link (s : State N) (h : Option (Heap N)) (r : Node N) : Option (State N × Result N) :=
  h.map fun h => ({ s with heap := h }, .node (some r))

/-- A call.  The ones that are not above are the inline functions that call a function of the List feature,
`Diminuto/inc/com/diag/diminuto/diminuto_scattergather.h:316-318,439-483`. -/
def step (s : State N) : Op N → Option (State N × Result N)
  | .put pp np => (poolPut s pp np).map fun s => (s, .nothing)
  | .poolFini pp => (poolFini pp (N + 1) s).map fun s => (s, .nothing)
  | .segmentAllocate pp size m => (segmentAllocate s pp size m).map fun (s, r) => (s, .node r)
  | .recordAllocate pp => (poolGet s pp).map fun (s, r) => (s, .node r)
  | .segmentFree pp sp => (segmentFree s pp sp).map fun s => (s, .nothing)
  | .recordSegmentFree pp sp => (recordSegmentFree s pp sp).map fun s => (s, .nothing)
  | .segmentsFree pp rp => (segmentsFree pp rp (N + 1) s).map fun s => (s, .node (some rp))
  | .recordFree pp rp => (recordFree s pp rp).map fun s => (s, .nothing)
  | .append rp sp => link s (DList.enqueue s.heap rp sp) sp
  | .prepend rp sp => link s (DList.push s.heap rp sp) sp
  | .insert op sp => link s (DList.splice s.heap op sp) sp
  | .replace op sp => link s (DList.replace s.heap op sp) op
  | .remove sp => link s (DList.remove s.heap sp) sp
  | .setLength sp ll => (lengthSet s (s.data sp) ll).map fun s => (s, .size ll)
  | .fill sp d => (fill s sp d).map fun s => (s, .nothing)
  | .enumerate rp => (enumerate s rp).map fun n => (s, .size n)
  | .measure rp => (measure s rp).map fun n => (s, .size n)
  | .write rp k => (output (-1) s rp k).map fun (t, d) => (s, .io t d)
  | .send rp k => (output 0 s rp k).map fun (t, d) => (s, .io t d)
  | .read rp d => (input (-1) s rp d).map fun (s, t) => (s, .io t [])
  | .receive rp d => (input 0 s rp d).map fun (s, t) => (s, .io t [])

/-- A history of calls. -/
def run (s : State N) : List (Op N) → Option (State N × List (Result N))
  | [] => some (s, [])
  | o :: os => (step s o).bind fun (s, r) => (run s os).map fun (s, rs) => (s, r :: rs)

/-- All nodes initialised, `diminuto_scattergather_pool_init`,
`Diminuto/inc/com/diag/diminuto/diminuto_scattergather.h:225-227`, and no buffers. -/
def start (N : Nat) : State N := ⟨fresh N, fun _ => none, fun _ => none⟩

end Diminuto.ScatterGather
