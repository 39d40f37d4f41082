import Verif.Mmdrivertool

/-!
# Specification: what the tool for the memory mapped driver is to do

In terms of the bits of registers: there are devices with memory at some address, and a tool that looks at or changes the bits of a word.
-/

namespace Diminuto.Mmdrivertool

/-- What the bytes in memory are, for each device. -/
abbrev Memory := List Byte → Nat → Byte

/-- Where the registers of each device are and how many bytes they are; nothing, if there is no such device. -/
abbrev Geometry := List Byte → Option (Nat × Nat)

/-- A bit of a word of so many bytes at an address. -/
def bit (le : Bool) (mem : Nat → Byte) (address n i : Nat) : Bool := (mem (address + (if le then i / 8 else n - 1 - i / 8))).getLsbD (i % 8)

/-- What the user has said up to now, and what has become of it: the device, the place and the size of the word, the mask, the last result, if it is known, the memory, and what has been printed. -/
structure View where
  device : List Byte
  place : Nat
  size : Nat
  mask : Nat
  last : Option Nat
  memory : Memory
  out : List Nat

/-- A text is a number. -/
def Numeral (t : List Byte) (v : Nat) : Prop := (Number.unsigned t).2.1 = [] ∧ (Number.unsigned t).1 % 2 ^ 64 = v

/-- The number that an argument of an operation stands for. -/
def Operand (bit : Bool) (t : List Byte) (v : Nat) : Prop := ∃ k, Numeral t k ∧ if bit then k < 64 ∧ v = 2 ^ k else v = k

/-- The word can be reached: there is a device, the place is in it, and it is aligned. -/
def Reaches (g : Geometry) (v : View) (address : Nat) : Prop := ∃ base length, g v.device = some (base, length) ∧ v.place ≤ length ∧ address = base + v.place ∧ v.size ∣ address

/-- The bits of the word are these, and nothing else in memory is different. -/
def Becomes (le : Bool) (v : View) (address : Nat) (f : Nat → Bool) (memory : Memory) : Prop :=
  (∀ i, i < 8 * v.size → bit le (memory v.device) address v.size i = f i) ∧
  (∀ x, ¬ (address ≤ x ∧ x < address + v.size) → memory v.device x = v.memory v.device x) ∧ ∀ d, d ≠ v.device → memory d = v.memory d

/-- A number is the low part of another one. -/
def Low (n v r : Nat) : Prop := r = v % 2 ^ (8 * n)

/-- What an option does. -/
inductive Does (g : Geometry) (le : Bool) (v : View) : Opt → View → Prop where
  | at {size : Size} {t : List Byte} {k : Nat} (h : Numeral t k) : Does g le v (.at size t) { v with place := k, size := size.bytes, last := if size.bytes = v.size then v.last else none }
  | device (t : List Byte) : Does g le v (.device t) { v with device := t }
  | mask {t : List Byte} {k : Nat} (h : Numeral t k) : Does g le v (.mask t) { v with mask := k }
  | delay {t : List Byte} {k : Nat} (h : Numeral t k) : Does g le v (.delay t) v
  | other : Does g le v .other v
  | test {nonzero : Bool} (h : ∀ r, v.last = some r → (r ≠ 0 ↔ nonzero = true)) : Does g le v (.test nonzero) v
  | read {address r : Nat} (ha : Reaches g v address) (hr : ∀ i, r.testBit i = (decide (i < 8 * v.size) && bit le (v.memory v.device) address v.size i)) :
      Does g le v .read { v with last := some r, out := v.out ++ [r] }
  | write {address k r : Nat} {t : List Byte} {memory : Memory} (ha : Reaches g v address) (hk : Numeral t k) (hr : Low v.size k r) (hm : Becomes le v address k.testBit memory) :
      Does g le v (.write t) { v with last := some r, memory := memory }
  | set {address k r : Nat} {b : Bool} {t : List Byte} {memory : Memory} (ha : Reaches g v address) (hk : Operand b t k) (hr : Low v.size k r)
      (hm : Becomes le v address (fun i => (bit le (v.memory v.device) address v.size i && !v.mask.testBit i) || k.testBit i) memory) : Does g le v (.set b t) { v with last := some r, memory := memory }
  | clear {address k r : Nat} {b : Bool} {t : List Byte} {memory : Memory} (ha : Reaches g v address) (hk : Operand b t k) (hr : Low v.size k r)
      (hm : Becomes le v address (fun i => bit le (v.memory v.device) address v.size i && !k.testBit i) memory) : Does g le v (.clear b t) { v with last := some r, memory := memory }

/-- An option that is an operation on the word. -/
def Operation : Opt → Prop
  | .clear _ _ | .set _ _ | .write _ | .read => True
  | _ => False

/-- The argument of an option. -/
def argument : Opt → Option (List Byte)
  | .at _ t | .clear _ t | .set _ t | .write t | .mask t | .delay t => some t
  | _ => none

/-- An option fails: its argument is not a number, or it is an operation and the word cannot be reached. -/
def Fails (g : Geometry) (v : View) (o : Opt) : Prop := (∃ t, argument o = some t ∧ ∀ k, ¬ Numeral t k) ∨ (Operation o ∧ ∀ a, ¬ Reaches g v a)

/-- A run with its status: the options are done one after the other, until a test says so or until one fails. -/
inductive Run (g : Geometry) (le : Bool) : View → List Opt → Nat → View → Prop where
  | done (v : View) : Run g le v [] 0 v
  | next {v v' v'' : View} {o : Opt} {os : List Opt} {st : Nat} (h : Does g le v o v') (rest : Run g le v' os st v'') : Run g le v (o :: os) st v''
  | stops {v : View} {nonzero : Bool} {os : List Opt} (h : ∀ r, v.last = some r → ¬ (r ≠ 0 ↔ nonzero = true)) : Run g le v (.test nonzero :: os) 0 v
  | fails {v : View} {o : Opt} {os : List Opt} (h : Fails g v o) : Run g le v (o :: os) 1 v

/-- What can be seen of a state when the program has ended: what has been printed and what is in the registers. -/
def Shows (s : State) (v : View) : Prop := s.out = v.out ∧ ∀ name d, s.devices name = some d → d.mem = v.memory name

/-- Where the registers are. -/
def geometry (devices : List Byte → Option Driver.Dev) : Geometry := fun name => (devices name).map fun d => (d.base, d.length.toNat)

/-- The view at the beginning. -/
def View.start (node : List Byte) (memory : Memory) : View := ⟨node, 0, 4, 0, some 0, memory, []⟩

end Diminuto.Mmdrivertool
