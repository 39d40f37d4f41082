import Verif.Wipe

/-!
# Specification: the tool that wipes a storage device
-/

namespace Diminuto.Wipe

/-- The words of the pattern. -/
def word (seed : BitVec 64) : Nat → Nat
  | 0 => seed.toNat
  | i + 1 => (word seed i * 4294967311 + 17) % 2 ^ 64

/-- The bytes of the pattern: eight of them for each word, in the order of the host. -/
def pattern (little : Bool) (seed : BitVec 64) (k : Nat) : Nat := word seed (k / 8) / 256 ^ (if little then k % 8 else 7 - k % 8) % 256

/-- Some bytes are the beginning of the pattern. -/
def Pattern (little : Bool) (seed : BitVec 64) (l : List Byte) : Prop := ∀ k b, l[k]? = some b → b.toNat = pattern little seed k

/-- A device that can be read: it has contents and a position, what is read are the contents from the position on, and the end is not reported before it is reached. -/
structure Readable {σ : Type} (d : Device σ) (contents : σ → List Byte) (position : σ → Nat) : Prop where
  rewind : ∀ s, contents (d.rewind s) = contents s ∧ position (d.rewind s) = 0
  data : ∀ s n l s', d.read s n = (some l, s') →
    contents s' = contents s ∧ position s' = position s + l.length ∧ l.length ≤ n ∧ l = ((contents s).drop (position s)).take l.length
  fails : ∀ s n s', d.read s n = (none, s') → contents s' = contents s
  ends : ∀ s n s', d.read s n = (some [], s') → 0 < n → (contents s).length ≤ position s

/-- A device that can be written: it has a fixed capacity, what is written replaces the contents at the position, something is written unless there is too little space, and there are no other failures. -/
structure Writable {σ : Type} (d : Device σ) (contents : σ → List Byte) (position : σ → Nat) : Prop where
  bytes : ∀ s l n s', d.write s l = (.bytes n, s') → n ≤ l.length ∧ (l ≠ [] → 0 < n) ∧ position s + n ≤ (contents s).length ∧ position s' = position s + n ∧
    contents s' = (contents s).take (position s) ++ (l.take n ++ (contents s).drop (position s + n))
  nospace : ∀ s l s', d.write s l = (.nospace, s') → contents s' = contents s ∧ position s' = position s ∧ (contents s).length < position s + l.length
  failed : ∀ s l s', d.write s l ≠ (.failed, s')

/-- A device, such as a block device of Linux, that writes what it has space for. -/
def Short {σ : Type} (d : Device σ) (contents : σ → List Byte) (position : σ → Nat) : Prop :=
  ∀ s l s', d.write s l = (.nospace, s') → (contents s).length ≤ position s

/-- A device that writes everything or nothing. -/
def Whole {σ : Type} (d : Device σ) : Prop := ∀ s l n s', d.write s l = (.bytes n, s') → n = l.length

/-- A device whose failures, other than for a lack of space, are counted. -/
structure Counts {σ : Type} (d : Device σ) (failures : σ → Nat) : Prop where
  bytes : ∀ s l n s', d.write s l = (.bytes n, s') → failures s' = failures s
  nospace : ∀ s l s', d.write s l = (.nospace, s') → failures s' = failures s
  failed : ∀ s l s', d.write s l = (.failed, s') → failures s' = failures s + 1
  rewind : ∀ s, failures (d.rewind s) = failures s
  read : ∀ s n l s', d.read s n = (some l, s') → failures s' = failures s
  unread : ∀ s n s', d.read s n = (none, s') → failures s' = failures s + 1

end Diminuto.Wipe
