import Verif.Memtool
import Verif.MapSpec
import Verif.NumberSpec

/-!
# Specification: the tool that manipulates memory
-/

namespace Diminuto.Memtool

open Diminuto.Map (World within Honest)
open Diminuto.Number (Reads)

/-- The options with the numbers that their arguments stand for. -/
inductive Command where
  | at (bytes : Nat) (n : Nat)
  | address (n : Nat)
  | length (n : Nat)
  | mask (n : Nat)
  | delay (n : Nat)
  | operation (op : Op) (n : Nat)
  | test (nonzero : Bool)
deriving DecidableEq

/-- The number of bytes that an option stands for. -/
def sized : Size → Nat
  | .byte => 1
  | .halfword => 2
  | .word => 4
  | .doubleword => 8

/-- An argument is a number. -/
def Spells (text : List Byte) (n : Nat) : Prop := Reads text false n [] ∧ n < 2 ^ 64

/-- Options stand for commands. -/
def Spelled : Opt → Command → Prop
  | .at size text, .at bytes n => bytes = sized size ∧ Spells text n
  | .address text, .address n => Spells text n
  | .length text, .length n => Spells text n
  | .mask text, .mask n => Spells text n
  | .delay text, .delay n => Spells text n
  | .operation op text, .operation op' n => op = op' ∧ (op = .read ∨ Spells text n)
  | .test b, .test b' => b = b'
  | _, _ => False

/-- Lists of options stand for lists of commands. -/
inductive Line : List Opt → List Command → Prop
  | nil : Line [] []
  | cons {o : Opt} {c : Command} {os : List Opt} {cs : List Command} : Spelled o c → Line os cs → Line (o :: os) (c :: cs)

/-- A number given by its lower bits. -/
def word : Nat → (Nat → Bool) → Nat
  | 0, _ => 0
  | n + 1, f => word n f + if f n then 2 ^ n else 0

/-- The bits that are stored over others. -/
def bits (op : Op) (mask n : Nat) (old : Nat → Bool) (i : Nat) : Bool :=
  match op with
  | .bitClear => old i && i != n
  | .clear => old i && !n.testBit i
  | .bitSet => (old i && !mask.testBit i) || i == n
  | .set => (old i && !mask.testBit i) || n.testBit i
  | .write | .read => n.testBit i

/-- What the user knows: the numbers of the last options, whether the region is in use, the bus, and the numbers that have been printed. -/
structure Account (β : Type) where
  address : Nat
  length : Nat
  offset : Nat
  size : Nat
  mask : Nat
  value : Nat
  used : Bool
  bus : β
  out : List Nat

/-- The beginning. -/
def beginning {β : Type} (bus : β) : Account β := ⟨0, 0, 0, 0, 0, 0, false, bus, []⟩

/-- The physical address that is meant. -/
def Account.target {β : Type} (a : Account β) : Nat := if a.length = 0 then a.offset else a.address + a.offset

/-- The operation makes sense: a size has been given, the object is aligned, it is in the region if there is one, and the number of a bit is one of its bits. -/
def Account.sensible {β : Type} (a : Account β) (most : Nat) (op : Op) (n : Nat) : Prop :=
  a.size ≠ 0 ∧ a.target % a.size = 0 ∧
  (a.length = 0 → a.offset + a.size ≤ 2 ^ 64) ∧
  (a.length ≠ 0 → a.offset + a.size ≤ a.length ∧ a.address + a.length ≤ 2 ^ 64 ∧ a.length ≤ most) ∧
  (op = .bitClear ∨ op = .bitSet → n < 8 * a.size)

instance {β : Type} (a : Account β) (most : Nat) (op : Op) (n : Nat) : Decidable (a.sensible most op n) := inferInstanceAs (Decidable (_ ∧ _ ∧ _ ∧ _ ∧ _))

/-- The operation on the physical address. -/
def Account.act {β : Type} (bus : Bus β) (op : Op) (n : Nat) (a : Account β) : Account β :=
  let w := 8 * a.size
  match op with
  | .read =>
    let r := bus.load a.target a.size a.bus
    { a with bus := r.2, out := a.out ++ [r.1 % 2 ^ w], value := r.1 % 2 ^ w, used := decide (a.length ≠ 0) }
  | .write => { a with bus := bus.store a.target a.size (n % 2 ^ w) a.bus, value := n % 2 ^ w, used := decide (a.length ≠ 0) }
  | op =>
    let r := bus.load a.target a.size a.bus
    { a with bus := bus.store a.target a.size (word w (bits op a.mask n r.1.testBit)) r.2, value := n % 2 ^ w, used := decide (a.length ≠ 0) }

/-- What the commands do; nothing if they are not used as they are meant to be: the length of a region is not changed while it is in use, and a delay can be expressed in ticks. -/
def follow {β : Type} (bus : Bus β) (most : Nat) : List Command → Account β → Option (Account β)
  | [], a => some a
  | .at bytes n :: r, a => follow bus most r { a with size := bytes, offset := n, value := n }
  | .address n :: r, a => follow bus most r { a with address := n, value := n, used := false }
  | .length n :: r, a => if a.used then none else follow bus most r { a with length := n, value := n }
  | .mask n :: r, a => follow bus most r { a with mask := n, value := n }
  | .delay n :: r, a => if n * 1000000000 < 2 ^ 64 then follow bus most r { a with value := n * 1000, bus := bus.wait (n * 1000) a.bus } else none
  | .operation op n :: r, a => if a.sensible most op n then follow bus most r (a.act bus op n) else none
  | .test nonzero :: r, a => if decide (a.value ≠ 0) = nonzero then follow bus most r a else some a

/-- While nothing is mapped the device can be opened and a region that is not too large be mapped; if a region is all that is mapped, it can be unmapped. -/
structure Grants {σ : Type} (w : World σ) (page most : Nat) (memory : σ → Nat → Option Nat) : Prop where
  opens : ∀ s, (memory s = fun _ => none) → 0 ≤ (w.open_ s).1
  maps : ∀ n fd a s, (memory s = fun _ => none) → 0 < n.toNat → n.toNat < most + page → a.toNat % page = 0 → (w.mmap n fd a s).1 ≠ none
  unmaps : ∀ b n s, 0 < n.toNat → b.toNat % page = 0 → (∀ v, memory s v ≠ none ↔ within page b.toNat n.toNat v) → 0 ≤ (w.munmap b n s).1

/-- No condition tests an offset, the address or the length; the flag tells whether the last number is something else. -/
def Settled : Bool → List Command → Prop
  | _, [] => True
  | _, .at _ _ :: r => Settled false r
  | _, .address _ :: _ => False
  | _, .length _ :: _ => False
  | _, .mask _ :: r => Settled true r
  | _, .delay _ :: r => Settled true r
  | _, .operation _ _ :: r => Settled true r
  | b, .test _ :: r => b = true ∧ Settled b r

/-- The same commands with addresses instead of offsets. -/
def absolute (address : Nat) : Command → Command
  | .at bytes n => .at bytes (address + n)
  | c => c

/-- What can be seen of a run: its status, the bus, and what has been printed. -/
def observed {σ β : Type} : Outcome σ β → Option (Nat × β × List Nat)
  | .exit status s => some (status, s.bus, s.out)
  | .undefined => none

/-- The argument of the option is not a number. -/
def Unreadable : Opt → Prop
  | .at _ text | .address text | .length text | .mask text | .delay text => text ≠ [] ∧ ∀ g n, ¬ Reads text g n []
  | .operation op text => op ≠ .read ∧ text ≠ [] ∧ ∀ g n, ¬ Reads text g n []
  | _ => False

/-- What happens on a bus. -/
inductive Event where
  | load (p n : Nat)
  | store (p n v : Nat)
  | wait (t : Nat)
deriving DecidableEq

/-- A bus that answers to a load with a function of the address, and records what happens. -/
def recorder : Bus (List Event) where
  load := fun p n s => (p / 16 + 165, s ++ [.load p n])
  store := fun p n v s => s ++ [.store p n v]
  wait := fun t s => s ++ [.wait t]

/-- Calls for examples: there is one place for a mapping, at 65536, of at most 2^32 bytes; the state is the number of pages of the mapping less one and the physical address. -/
def calls : World (Option (Nat × Nat)) where
  open_ := fun s => (3, s)
  mmap := fun n _ a s => if 0 < n.toNat ∧ n.toNat ≤ 2 ^ 32 ∧ a.toNat % 4096 = 0 ∧ s = none then (some 65536#64, some ((n.toNat - 1) / 4096, a.toNat)) else (none, s)
  munmap := fun b n s =>
    match s with
    | none => (-1, s)
    | some (k, _) => if b = 65536#64 ∧ 0 < n.toNat ∧ (n.toNat - 1) / 4096 = k then (0, none) else (-1, s)
  close := fun _ s => (0, s)
  getuid := fun _ => 0
  geteuid := fun _ => 0
  openmin := fun s => (3, s)
  fdopen := fun _ s => (true, s)
  fprintf := fun _ _ s => (1, s)
  fclose := fun _ s => (true, s)

/-- The virtual memory of the machine for examples. -/
def virtual (s : Option (Nat × Nat)) : Nat → Option Nat := fun v =>
  match s with
  | none => none
  | some (k, a) => if 65536 ≤ v ∧ v < 65536 + (k + 1) * 4096 then some (a + (v - 65536)) else none

/-- A machine for examples. -/
def example_ : Machine (Option (Nat × Nat)) (List Event) := ⟨calls, 4096, virtual, recorder⟩

end Diminuto.Memtool
