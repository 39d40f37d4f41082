import Verif.I2c

/-!
# What the I2C feature is meant to do
-/

namespace Diminuto.I2c

/-- Several steps of the process. -/
inductive Steps {σ : Type} (w : World σ) (x : Sys σ) : Sys σ → Prop where
  | here : Steps w x x
  | step {y z : Sys σ} : Steps w x y → Step w y z → Steps w x z

/-- The process before any of its threads has called an operation. -/
def start {σ : Type} (todo : Nat → List Op) (s : σ) : Sys σ := ⟨fun t => ⟨todo t, none, [], false⟩, none, s⟩

/-- Some calls, all of which succeed, take the result and the world from one state to another. -/
inductive Part {σ : Type} (w : World σ) (fd : Int) (r : Result) (s : σ) : List Call → Result → σ → Prop where
  | nil : Part w fd r s [] r s
  | more {cs : List Call} {c : Call} {p q : Result} {a b : σ} : Part w fd r s cs p a → perform w fd c p a = (q, b) → 0 ≤ q.rc → Part w fd r s (cs ++ [c]) q b

/-- What an operation that is cut short can have done: some of its calls, but not all, in order, with nothing between them. -/
def Cut {σ : Type} (w : World σ) (op : Op) (s s' : σ) : Prop := ∃ pre q, pre <+: op.calls ∧ pre ≠ op.calls ∧ Part w op.fd ⟨-1, []⟩ s pre q s'

/-- The operations have happened one after the other, each as if there were no other thread; the result `none` is that of one whose thread was cancelled in it. -/
inductive Serial {σ : Type} (w : World σ) (s : σ) : List (Nat × Op × Option Result) → σ → Prop where
  | nil : Serial w s [] s
  | whole {h : List (Nat × Op × Option Result)} {a b : σ} {r : Result} (t : Nat) (op : Op) : Serial w s h a → whole w op a = (r, b) → Serial w s (h ++ [(t, op, some r)]) b
  | cut {h : List (Nat × Op × Option Result)} {a b : σ} (t : Nat) (op : Op) : Serial w s h a → Cut w op a b → Serial w s (h ++ [(t, op, none)]) b

/-- What a thread has been told, according to a history. -/
def told (t : Nat) (h : List (Nat × Op × Option Result)) : List Result := h.filterMap fun e => if e.1 = t then e.2.2 else none

/-- What a thread has called, according to a history. -/
def asked (t : Nat) (h : List (Nat × Op × Option Result)) : List Op := h.filterMap fun e => if e.1 = t then some e.2.1 else none

/-- The system calls return a count or -1. -/
def Minus {σ : Type} (w : World σ) : Prop :=
  (∀ fd a s, (w.slave fd a s).1 < 0 → (w.slave fd a s).1 = -1) ∧ (∀ fd d s, (w.write fd d s).1 < 0 → (w.write fd d s).1 = -1) ∧ ∀ fd n s, (w.read fd n s).1 < 0 → (w.read fd n s).1 = -1

/-- A bus of devices with registers, as most devices are: the first byte of a message that is written is the number of a register, the following ones are stored there and in the next registers;
what is read is the content of the registers from there on (NXP UM10204; SMBus "write byte", "read byte").  Every descriptor has a device in use. -/
structure Bus where
  inUse : Int → BitVec 8
  pointer : BitVec 8 → BitVec 8
  regs : BitVec 8 → BitVec 8 → Byte

/-- The content of the registers after some bytes have been stored. -/
def stored (r : BitVec 8 → Byte) (p : BitVec 8) : List Byte → BitVec 8 → Byte
  | [] => r
  | b :: l => stored (fun q => if q = p then b else r q) (p + 1) l

/-- The content of a number of registers. -/
def content (r : BitVec 8 → Byte) (p : BitVec 8) (n : Nat) : List Byte := (List.range n).map fun i => r (p + BitVec.ofNat 8 i)

/-- The system calls for such a bus. -/
def bus : World Bus where
  slave fd addr b := (0, { b with inUse := fun f => if f = fd then addr else b.inUse f })
  write fd data b :=
    match data with
    | [] => (0, b)
    | p :: l =>
      (data.length, { b with pointer := fun a => if a = b.inUse fd then p + BitVec.ofNat 8 l.length else b.pointer a, regs := fun a => if a = b.inUse fd then stored (b.regs a) p l else b.regs a })
  read fd n b :=
    (n, content (b.regs (b.inUse fd)) (b.pointer (b.inUse fd)) n, { b with pointer := fun a => if a = b.inUse fd then b.pointer a + BitVec.ofNat 8 n else b.pointer a })

end Diminuto.I2c
