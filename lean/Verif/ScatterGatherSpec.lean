import Verif.ScatterGather

/-!
# Specification: Scatter/Gather

There are no links, roots, data pointers or vectors here: a pool and a record are sequences of nodes, and a
segment is some bytes.
-/

namespace Diminuto.ScatterGather

/-- A segment: where its buffer is, how many of its bytes are data, and its bytes. -/
structure Segment where
  address : Nat
  length : Nat
  payload : List Byte
  deriving DecidableEq

/-- What a node is for: nothing yet, a pool, a node in a pool, a record, a segment. -/
inductive Role
  | idle
  | pool
  | spare
  | record
  | segment (s : Segment)
  deriving DecidableEq

/-- The nodes in each pool and the segments of each record, and what each node is for. -/
structure View (N : Nat) where
  queue : Fin N → List (Fin N)
  role : Fin N → Role

variable {N : Nat}

/-- Change one value of a function. -/
def set {α β : Type} [DecidableEq α] (f : α → β) (a : α) (b : β) : α → β := fun x => if x = a then b else f x

/-- The queues with a node taken out, wherever it was. -/
def without (q : Fin N → List (Fin N)) (n : Fin N) : Fin N → List (Fin N) := fun p => (q p).erase n

/-- The bytes of data of a node. -/
def View.bytes (v : View N) (n : Fin N) : List Byte :=
  match v.role n with
  | .segment s => s.payload.take s.length
  | _ => []

/-- The bytes of data of a record: those of its segments one after another. -/
def View.content (v : View N) (r : Fin N) : List Byte := (v.queue r).flatMap v.bytes

/-- What is before a node in a sequence. -/
def before (n : Fin N) : List (Fin N) → List (Fin N)
  | [] => []
  | x :: l => if x = n then [] else x :: before n l

/-- The segment after the bytes `d` have come in, of which the first `off` are for other segments: byte `i` is
byte `off + i` of them, if there is one and it is within the length. -/
def Segment.receive (s : Segment) (off : Nat) (d : List Byte) : Segment :=
  { s with payload := s.payload.mapIdx fun i b => if i < s.length then d[off + i]?.getD b else b }

/-- The roles of the nodes after the bytes `d` have come in for the record `r`. -/
def View.received (v : View N) (r : Fin N) (d : List Byte) : Fin N → Role := fun n =>
  match v.role n with
  | .segment s =>
    if n ∈ v.queue r then .segment (s.receive ((before n (v.queue r)).flatMap v.bytes).length d) else .segment s
  | x => x

/-- A record can be transferred: it has at least one and at most 1024 segments. -/
def View.Sound (v : View N) (r : Fin N) : Prop := 0 < (v.queue r).length ∧ (v.queue r).length ≤ 1024

/-- What a call requires, and what it does and returns. -/
inductive View.Step : View N → Op N → View N → Result N → Prop
  /-- Putting a new node in a pool puts it last. -/
  | put {v : View N} {p n : Fin N} (hp : v.role p = .pool) (hn : v.role n = .idle) :
      Step v (.put p n) ⟨set v.queue p (v.queue p ++ [n]), set v.role n .spare⟩ .nothing
  /-- Finishing a pool empties it. -/
  | poolFini {v : View N} {p : Fin N} (hp : v.role p = .pool) :
      Step v (.poolFini p) ⟨set v.queue p [], fun x => if x ∈ v.queue p then .idle else v.role x⟩ .nothing
  /-- No memory. -/
  | segmentNoMemory {v : View N} {p : Fin N} {size : BitVec 64} (hp : v.role p = .pool) :
      Step v (.segmentAllocate p size none) v (.node none)
  /-- No node. -/
  | segmentNoNode {v : View N} {p : Fin N} {size : BitVec 64} {b : Nat} {junk : Nat → Byte}
      (hp : v.role p = .pool) (hq : v.queue p = []) (hs : size.toNat + 8 < 2 ^ 64)
      (hb : ∀ n s, v.role n = .segment s → s.address ≠ b) :
      Step v (.segmentAllocate p size (some (b, junk))) v (.node none)
  /-- A segment is the first node in the pool, has room for the bytes asked for, and that length. -/
  | segmentAllocate {v : View N} {p n : Fin N} {q : List (Fin N)} {size : BitVec 64} {b : Nat} {junk : Nat → Byte}
      (hp : v.role p = .pool) (hq : v.queue p = n :: q) (hs : size.toNat + 8 < 2 ^ 64)
      (hb : ∀ n s, v.role n = .segment s → s.address ≠ b) :
      Step v (.segmentAllocate p size (some (b, junk)))
        ⟨set v.queue p q, set v.role n (.segment ⟨b, size.toNat, (List.range size.toNat).map junk⟩)⟩ (.node (some n))
  | recordNoNode {v : View N} {p : Fin N} (hp : v.role p = .pool) (hq : v.queue p = []) :
      Step v (.recordAllocate p) v (.node none)
  | recordAllocate {v : View N} {p n : Fin N} {q : List (Fin N)} (hp : v.role p = .pool) (hq : v.queue p = n :: q) :
      Step v (.recordAllocate p) ⟨set v.queue p q, set v.role n .record⟩ (.node (some n))
  /-- Freeing a segment takes it off its record, if it is on one, and puts it last in the pool. -/
  | segmentFree {v : View N} {p n : Fin N} {s : Segment} (hp : v.role p = .pool) (hn : v.role n = .segment s) :
      Step v (.segmentFree p n)
        ⟨set (without v.queue n) p (v.queue p ++ [n]), set v.role n .spare⟩ .nothing
  | recordSegmentFree {v : View N} {p n : Fin N} {s : Segment} (hp : v.role p = .pool) (hn : v.role n = .segment s) :
      Step v (.recordSegmentFree p n)
        ⟨set (without v.queue n) p (v.queue p ++ [n]), set v.role n .spare⟩ .nothing
  /-- Freeing the segments of a record puts them last in the pool, in order. -/
  | segmentsFree {v : View N} {p r : Fin N} (hp : v.role p = .pool) (hr : v.role r = .record) :
      Step v (.segmentsFree p r)
        ⟨set (set v.queue r []) p (v.queue p ++ v.queue r), fun x => if x ∈ v.queue r then .spare else v.role x⟩
        (.node (some r))
  | recordFree {v : View N} {p r : Fin N} (hp : v.role p = .pool) (hr : v.role r = .record) :
      Step v (.recordFree p r)
        ⟨set (set v.queue r []) p (v.queue p ++ v.queue r ++ [r]),
          fun x => if x = r ∨ x ∈ v.queue r then .spare else v.role x⟩ .nothing
  /-- A segment that is not already on the record is taken off the record that it is on, if any. -/
  | append {v : View N} {r n : Fin N} {s : Segment} (hr : v.role r = .record) (hn : v.role n = .segment s)
      (hq : n ∉ v.queue r) :
      Step v (.append r n) { v with queue := set (without v.queue n) r (v.queue r ++ [n]) } (.node (some n))
  /-- The segment may be on the record. -/
  | prepend {v : View N} {r n : Fin N} {s : Segment} (hr : v.role r = .record) (hn : v.role n = .segment s) :
      Step v (.prepend r n) { v with queue := set (without v.queue n) r (n :: (v.queue r).erase n) } (.node (some n))
  /-- A segment that is on no record is inserted after one that is. -/
  | insert {v : View N} {r o n : Fin N} {s : Segment} {a b : List (Fin N)} (hr : v.role r = .record)
      (hn : v.role n = .segment s) (ho : v.queue r = a ++ o :: b) (hq : ∀ p, n ∉ v.queue p) :
      Step v (.insert o n) { v with queue := set v.queue r (a ++ o :: n :: b) } (.node (some n))
  /-- A segment is replaced by one that is not on the record. -/
  | replace {v : View N} {r o n : Fin N} {s : Segment} {a b : List (Fin N)} (hr : v.role r = .record)
      (hn : v.role n = .segment s) (ho : v.queue r = a ++ o :: b) (hq : n ∉ v.queue r) :
      Step v (.replace o n) { v with queue := set (without v.queue n) r (a ++ n :: b) } (.node (some o))
  | remove {v : View N} {n : Fin N} {s : Segment} (hn : v.role n = .segment s) :
      Step v (.remove n) { v with queue := without v.queue n } (.node (some n))
  | setLength {v : View N} {n : Fin N} {s : Segment} {ll : BitVec 64} (hn : v.role n = .segment s)
      (hl : ll.toNat ≤ s.payload.length) :
      Step v (.setLength n ll) { v with role := set v.role n (.segment { s with length := ll.toNat }) } (.size ll)
  | fill {v : View N} {n : Fin N} {s : Segment} {d : List Byte} (hn : v.role n = .segment s)
      (hl : d.length = s.payload.length) :
      Step v (.fill n d) { v with role := set v.role n (.segment { s with payload := d }) } .nothing
  | enumerate {v : View N} {r : Fin N} (hr : v.role r = .record) :
      Step v (.enumerate r) v (.size (BitVec.ofNat 64 (v.queue r).length))
  /-- (The sum of the lengths is computed modulo `2 ^ 64`.) -/
  | measure {v : View N} {r : Fin N} (hr : v.role r = .record) :
      Step v (.measure r) v (.size (BitVec.ofNat 64 (v.content r).length))
  /-- The number of segments is not right. -/
  | writeUnsound {v : View N} {r : Fin N} {k : Option Nat} (hr : v.role r = .record) (hs : ¬ v.Sound r) :
      Step v (.write r k) v (.io (-1) [])
  | writeFail {v : View N} {r : Fin N} (hr : v.role r = .record) :
      Step v (.write r none) v (.io (-1) [])
  /-- What goes out is as much of the content of the record as the system takes, and its length is returned. -/
  | write {v : View N} {r : Fin N} {k : Nat} (hr : v.role r = .record) (hs : v.Sound r) :
      Step v (.write r (some k)) v (.io (min k (v.content r).length : Nat) ((v.content r).take k))
  | sendUnsound {v : View N} {r : Fin N} {k : Option Nat} (hr : v.role r = .record) (hs : ¬ v.Sound r) :
      Step v (.send r k) v (.io 0 [])
  | sendFail {v : View N} {r : Fin N} (hr : v.role r = .record) (hs : v.Sound r) :
      Step v (.send r none) v (.io (-1) [])
  | send {v : View N} {r : Fin N} {k : Nat} (hr : v.role r = .record) (hs : v.Sound r) :
      Step v (.send r (some k)) v (.io (min k (v.content r).length : Nat) ((v.content r).take k))
  | readUnsound {v : View N} {r : Fin N} {d : Option (List Byte)} (hr : v.role r = .record) (hs : ¬ v.Sound r) :
      Step v (.read r d) v (.io (-1) [])
  | readFail {v : View N} {r : Fin N} (hr : v.role r = .record) :
      Step v (.read r none) v (.io (-1) [])
  /-- What comes in goes to the segments in order, and how much it is is returned. -/
  | read {v : View N} {r : Fin N} {d : List Byte} (hr : v.role r = .record) (hs : v.Sound r) :
      Step v (.read r (some d)) { v with role := v.received r d } (.io (min d.length (v.content r).length : Nat) [])
  | receiveUnsound {v : View N} {r : Fin N} {d : Option (List Byte)} (hr : v.role r = .record) (hs : ¬ v.Sound r) :
      Step v (.receive r d) v (.io 0 [])
  | receiveFail {v : View N} {r : Fin N} (hr : v.role r = .record) (hs : v.Sound r) :
      Step v (.receive r none) v (.io (-1) [])
  | receive {v : View N} {r : Fin N} {d : List Byte} (hr : v.role r = .record) (hs : v.Sound r) :
      Step v (.receive r (some d)) { v with role := v.received r d } (.io (min d.length (v.content r).length : Nat) [])

/-- A history. -/
inductive View.Run : View N → List (Op N) → View N → List (Result N) → Prop
  | nil {v : View N} : Run v [] v []
  | cons {v v1 v2 : View N} {o : Op N} {os : List (Op N)} {r : Result N} {rs : List (Result N)}
      (h : View.Step v o v1 r) (t : View.Run v1 os v2 rs) : Run v (o :: os) v2 (r :: rs)

/-- The pools are empty and no other node is in use. -/
def View.start (pools : Fin N → Bool) : View N :=
  ⟨fun _ => [], fun n => if pools n then .pool else .idle⟩

end Diminuto.ScatterGather
