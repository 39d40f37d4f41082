/-!
# Model of the Ring feature

Models `Diminuto/src/diminuto_ring.c:15-65` and
`Diminuto/inc/com/diag/diminuto/diminuto_ring.h:37-139`.  All fields are
`uint32_t` and all arithmetic is 32-bit unsigned, modelled by `BitVec 32`.
Taking a remainder by a zero capacity is undefined behaviour in C; the model
makes it the distinct outcome `none`.  The functions return `int`: storing an
index above `INT_MAX` there is the implementation-defined wrap `BitVec.toInt`.
-/

namespace Diminuto.Ring

/-- `diminuto_ring_t`, `Diminuto/inc/com/diag/diminuto/diminuto_ring.h:37-42`. -/
structure Ring where
  capacity : BitVec 32
  measure : BitVec 32
  producer : BitVec 32
  consumer : BitVec 32
  deriving DecidableEq, Repr

/-- `diminuto_ring_init`, `Diminuto/inc/com/diag/diminuto/diminuto_ring.h:71-78`. -/
def init (capacity : BitVec 32) : Ring := ⟨capacity, 0, 0, 0⟩

/-- `diminuto_ring_used`, `Diminuto/inc/com/diag/diminuto/diminuto_ring.h:98-100`. -/
def used (r : Ring) : BitVec 32 := r.measure

/-- `diminuto_ring_free`, `Diminuto/inc/com/diag/diminuto/diminuto_ring.h:107-109`. -/
def free (r : Ring) : BitVec 32 := r.capacity - r.measure

/-- `x % y` on `uint32_t`; undefined (`none`) for `y = 0`. -/
def mod? (x y : BitVec 32) : Option (BitVec 32) := if y = 0 then none else some (x % y)

/-- `diminuto_ring_next`, `Diminuto/inc/com/diag/diminuto/diminuto_ring.h:123-125`. -/
def next (r : Ring) (index : BitVec 32) : Option (BitVec 32) := mod? (index + 1) r.capacity

/-- `diminuto_ring_consumer_peek`,
`Diminuto/inc/com/diag/diminuto/diminuto_ring.h:137-139`. -/
def consumerPeek (r : Ring) : Int := if r.measure ≥ 1 then r.consumer.toInt else -1

/-- `diminuto_ring_producer_request`, `Diminuto/src/diminuto_ring.c:15-26`. -/
def producerRequest (r : Ring) (request : BitVec 32) : Option (Ring × Int) :=
  if r.measure + request ≤ r.capacity then do
    let p ← mod? (r.producer + request) r.capacity
    some ({ r with measure := r.measure + request, producer := p }, r.producer.toInt)
  else some (r, -1)

/-- `diminuto_ring_producer_revoke`, `Diminuto/src/diminuto_ring.c:28-39`. -/
def producerRevoke (r : Ring) (request : BitVec 32) : Option (Ring × Int) :=
  if r.measure ≥ request then do
    let p ← mod? (r.producer + r.capacity - request) r.capacity
    some ({ r with measure := r.measure - request, producer := p }, request.toInt)
  else some (r, -1)

/-- `diminuto_ring_consumer_request`, `Diminuto/src/diminuto_ring.c:41-52`. -/
def consumerRequest (r : Ring) (request : BitVec 32) : Option (Ring × Int) :=
  if r.measure ≥ request then do
    let c ← mod? (r.consumer + request) r.capacity
    some ({ r with measure := r.measure - request, consumer := c }, r.consumer.toInt)
  else some (r, -1)

/-- `diminuto_ring_consumer_revoke`, `Diminuto/src/diminuto_ring.c:54-65`. -/
def consumerRevoke (r : Ring) (request : BitVec 32) : Option (Ring × Int) :=
  if r.measure + request ≤ r.capacity then do
    let c ← mod? (r.consumer + r.capacity - request) r.capacity
    some ({ r with measure := r.measure + request, consumer := c }, request.toInt)
  else some (r, -1)

/-- The four mutating entry points of `Diminuto/src/diminuto_ring.c:15-65`. -/
inductive Op
  | producerRequest (n : BitVec 32)
  | producerRevoke (n : BitVec 32)
  | consumerRequest (n : BitVec 32)
  | consumerRevoke (n : BitVec 32)

/-- The argument of an operation. -/
def Op.arg : Op → BitVec 32
  | .producerRequest n | .producerRevoke n | .consumerRequest n | .consumerRevoke n => n

/-- Dispatch to the function an operation names,
`Diminuto/src/diminuto_ring.c:15-65`. -/
def step (r : Ring) : Op → Option (Ring × Int)
  | .producerRequest n => producerRequest r n
  | .producerRevoke n => producerRevoke r n
  | .consumerRequest n => consumerRequest r n
  | .consumerRevoke n => consumerRevoke r n

/-- A sequence of calls to the functions of `Diminuto/src/diminuto_ring.c:15-65`
with their return values; `none` as soon as one has undefined behaviour. -/
def run (r : Ring) : List Op → Option (Ring × List Int)
  | [] => some (r, [])
  | op :: ops => do
    let (r', x) ← step r op
    let (r'', xs) ← run r' ops
    some (r'', x :: xs)

end Diminuto.Ring
