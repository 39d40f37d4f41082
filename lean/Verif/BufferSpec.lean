import Verif.Buffer

/-!
# Specification: buffer pools
-/

namespace Diminuto.Buffer

/-- What a pool may be made of: ascending sizes that leave room for the header. -/
structure Valid (sizes : List Nat) : Prop where
  ascending : sizes.Pairwise (· < ·)
  small : ∀ x ∈ sizes, x + 8 < 2 ^ 64
  count : sizes.length < 2 ^ 32

/-- The specification: a stack of free buffers for every size, and the capacities of the buffers that the
application holds. -/
structure View where
  stack : Nat → List Nat
  cap : Nat → Option Nat

/-- A block that is neither held nor in the pool. -/
def View.Unused (v : View) (a : Nat) : Prop := a ≠ 0 ∧ v.cap a = none ∧ ∀ c, a ∉ v.stack c

/-- The size that serves a request is the least that is large enough, or else the request itself. -/
def capacity (sizes : List Nat) (size : Nat) : Nat := (sizes.find? (size ≤ ·)).getD size

/-- Allocation: the buffer that was last put on the stack of its size; if there is none, one from the heap, if that is
allowed and succeeds. -/
inductive View.Get (sizes : List Nat) (v : View) (nm : Bool) : Nat → Option Nat → View → Nat → Prop
  | nothing {m : Option Nat} : Get sizes v nm 0 m v 0
  | reuse {size c k a : Nat} {l : List Nat} {m : Option Nat} (hp : 0 < size) (hk : sizes[c]? = some k) (hge : size ≤ k)
      (hlt : ∀ d x, d < c → sizes[d]? = some x → x < size) (hs : v.stack c = a :: l) :
      Get sizes v nm size m { stack := upd v.stack c l, cap := upd v.cap a (some k) } a
  | fail {size : Nat} {m : Option Nat} (hp : 0 < size) (hb : size + 8 < 2 ^ 64)
      (he : ∀ c, sizes[c]? = some (capacity sizes size) → v.stack c = []) (hn : nm = true ∨ m = none) :
      Get sizes v nm size m v 0
  | fresh {size a : Nat} (hp : 0 < size) (hb : size + 8 < 2 ^ 64)
      (he : ∀ c, sizes[c]? = some (capacity sizes size) → v.stack c = []) (hn : nm = false) (hu : v.Unused a) :
      Get sizes v nm size (some a) { v with cap := upd v.cap a (some (capacity sizes size)) } a

/-- Freeing a buffer that is held: it goes on the stack of its size, or back to the heap. -/
inductive View.Put (sizes : List Nat) (v : View) : Nat → View → Prop
  | pooled {a c k : Nat} (hc : v.cap a = some k) (hk : sizes[c]? = some k) :
      Put sizes v a { stack := upd v.stack c (a :: v.stack c), cap := upd v.cap a none }
  | heap {a k : Nat} (hc : v.cap a = some k) (hk : k ∉ sizes) : Put sizes v a { v with cap := upd v.cap a none }

/-- Preallocation for the stack `c`: as many as wanted, or until the heap fails. -/
inductive View.Fill (c : Nat) : View → Nat → List (Option Nat) → View → Nat → Prop
  | enough {v : View} {ms : List (Option Nat)} : Fill c v 0 ms v 0
  | fail {v : View} {n : Nat} {ms : List (Option Nat)} (h : ms.head?.join = none) : Fill c v (n + 1) ms v 0
  | more {v v' : View} {n a count : Nat} {ms : List (Option Nat)} (hu : v.Unused a)
      (t : Fill c { v with stack := upd v.stack c (a :: v.stack c) } n ms v' count) :
      Fill c v (n + 1) (some a :: ms) v' (count + 1)

/-- What a call requires, and what it does and returns. -/
inductive View.Step (sizes : List Nat) (v : View) : Op → View → Nat → Prop
  | malloc {size : Nat} {nm : Bool} {m : Option Nat} {v' : View} {r : Nat} (h : View.Get sizes v nm size m v' r) :
      Step sizes v (.malloc size nm m) v' r
  | free {a : Nat} {v' : View} (h : View.Put sizes v a v') : Step sizes v (.free a) v' 0
  | freeNull : Step sizes v (.free 0) v 0
  | reallocNull {size : Nat} {nm : Bool} {m : Option Nat} {v' : View} {r : Nat} (h : View.Get sizes v nm size m v' r) :
      Step sizes v (.realloc 0 size nm m) v' r
  | reallocFree {a : Nat} {nm : Bool} {m : Option Nat} {v' : View} (h : View.Put sizes v a v') :
      Step sizes v (.realloc a 0 nm m) v' 0
  | reallocSame {a size : Nat} {nm : Bool} {m : Option Nat} (hp : 0 < size) (hb : size + 8 < 2 ^ 64)
      (hc : v.cap a = some (capacity sizes size)) : Step sizes v (.realloc a size nm m) v a
  | reallocMove {a size k : Nat} {nm : Bool} {m : Option Nat} {v1 v' : View} {r : Nat} (hp : 0 < size)
      (hb : size + 8 < 2 ^ 64) (hc : v.cap a = some k) (hne : k ≠ capacity sizes size)
      (hg : View.Get sizes v nm size m v1 r) (hput : View.Put sizes v1 a v') : Step sizes v (.realloc a size nm m) v' r
  | calloc {n size : Nat} {nm : Bool} {m : Option Nat} {v' : View} {r : Nat} (hb : n * size < 2 ^ 64)
      (h : View.Get sizes v nm (n * size) m v' r) : Step sizes v (.calloc n size nm m) v' r
  | preallocNone {n size : Nat} {ms : List (Option Nat)} (h : n = 0 ∨ size = 0 ∨ ∀ x ∈ sizes, x < size) :
      Step sizes v (.prealloc n size ms) v 0
  | prealloc {n size c k count : Nat} {ms : List (Option Nat)} {v' : View} (hp : 0 < size) (hk : sizes[c]? = some k)
      (hge : size ≤ k) (hlt : ∀ d x, d < c → sizes[d]? = some x → x < size) (hf : View.Fill c v n ms v' count)
      (hb : count * (k + 8) < 2 ^ 64) : Step sizes v (.prealloc n size ms) v' (count * (k + 8))
  | fini : Step sizes v .fini { v with stack := fun _ => [] } 0
  | write {a i k : Nat} {b : Byte} (hc : v.cap a = some k) (hi : i < k) : Step sizes v (.write a i b) v 0

/-- A history. -/
inductive View.Run (sizes : List Nat) : View → List Op → View → List Nat → Prop
  | nil {v : View} : Run sizes v [] v []
  | cons {v v1 v2 : View} {o : Op} {os : List Op} {r : Nat} {rs : List Nat}
      (h : View.Step sizes v o v1 r) (t : View.Run sizes v1 os v2 rs) : Run sizes v (o :: os) v2 (r :: rs)

/-- Nothing. -/
def View.start : View := ⟨fun _ => [], fun _ => none⟩

end Diminuto.Buffer
