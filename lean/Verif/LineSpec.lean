import Verif.Line
import Verif.WalkerSpec
import Verif.NumberSpec

/-!
# Specification: the lookup of GPIO lines
-/

namespace Diminuto.Line

/-- A file system that does not change, with GPIO controllers that do not change: for a path, the names of the lines of the controller, of those that can be got. -/
structure Board where
  fs : Walker.Fs
  real : Name → Option Name
  present : Name → Option (BitVec 32)
  lines : Name → Option (List (Option Name))

/-- The system calls for it; the descriptor is the path.  Not only controllers can be opened. -/
def Board.world (b : Board) : World Unit Name where
  realpath := b.real
  stat := b.present
  lstat := fun p s => (b.fs.mode p, s)
  opendir := fun p s => ((match b.fs.names p with | .ok l => .ok (l, false) | .error e => .error e), s)
  closedir := fun _ s => (true, s)
  open_ := fun p s => (some p, s)
  chipinfo := fun p s => ((b.lines p).map fun l => BitVec.ofNat 31 l.length, s)
  lineinfo := fun p i s => (((b.lines p).bind fun l => l[i]?).getD none, s)
  close := fun _ s => (true, s)

/-- Controllers have fewer than 2^31 lines. -/
def Board.Small (b : Board) : Prop := ∀ p l, b.lines p = some l → l.length < 2 ^ 31

/-- The mode is that of a character device: its kind, the four bits above the lower twelve, is two. -/
def character (mode : BitVec 32) : Bool := mode.extractLsb' 12 4 = 2#4

/-- The first line of a controller with a name is at an offset, and the names of all before it can be got. -/
def Carries (b : Board) (path wanted : Name) (k : Nat) : Prop :=
  wanted ≠ [] ∧ ∃ l, b.lines path = some l ∧ l[k]? = some (some wanted) ∧ ∀ j, j < k → ∃ n, l[j]? = some (some n) ∧ n ≠ wanted

/-- At or below the root there is a character device, whose name begins with the prefix, with that line. -/
def Offers (b : Board) (root pre wanted path : Name) (k : Nat) : Prop :=
  ∃ name depth mode, Walker.Below b.fs root path name depth ∧ b.fs.mode path = .ok mode ∧ character mode = true ∧ pre <+: name ∧ Carries b path wanted k

/-- The string in a buffer. -/
def text (buffer : List Byte) : Name := buffer.takeWhile (· ≠ 0#8)

/-- The system calls, with a note in the state of the descriptors that are open, and of whether one was closed that was not. -/
def tracked {σ δ : Type} [DecidableEq δ] (w : World σ δ) : World (σ × List δ × Bool) δ where
  realpath := w.realpath
  stat := w.stat
  lstat := fun p s => ((w.lstat p s.1).1, (w.lstat p s.1).2, s.2)
  opendir := fun p s => ((w.opendir p s.1).1, (w.opendir p s.1).2, s.2)
  closedir := fun p s => ((w.closedir p s.1).1, (w.closedir p s.1).2, s.2)
  open_ := fun p s =>
    match w.open_ p s.1 with
    | (none, t) => (none, t, s.2)
    | (some fd, t) => (some fd, t, fd :: s.2.1, s.2.2)
  chipinfo := fun fd s => ((w.chipinfo fd s.1).1, (w.chipinfo fd s.1).2, s.2)
  lineinfo := fun fd i s => ((w.lineinfo fd i s.1).1, (w.lineinfo fd i s.1).2, s.2)
  close := fun fd s => ((w.close fd s.1).1, (w.close fd s.1).2, s.2.1.erase fd, s.2.2 || decide (fd ∉ s.2.1))

/-- The system calls, with a note in the state of the files that have been opened, and of the names of lines that have been got. -/
def noted {σ δ : Type} (w : World σ δ) : World (σ × List (δ × Name) × List (δ × Nat × Name)) δ where
  realpath := w.realpath
  stat := w.stat
  lstat := fun p s => ((w.lstat p s.1).1, (w.lstat p s.1).2, s.2)
  opendir := fun p s => ((w.opendir p s.1).1, (w.opendir p s.1).2, s.2)
  closedir := fun p s => ((w.closedir p s.1).1, (w.closedir p s.1).2, s.2)
  open_ := fun p s =>
    match w.open_ p s.1 with
    | (none, t) => (none, t, s.2)
    | (some fd, t) => (some fd, t, (fd, p) :: s.2.1, s.2.2)
  chipinfo := fun fd s => ((w.chipinfo fd s.1).1, (w.chipinfo fd s.1).2, s.2)
  lineinfo := fun fd i s =>
    match w.lineinfo fd i s.1 with
    | (none, t) => (none, t, s.2)
    | (some n, t) => (some n, t, s.2.1, (fd, i, n) :: s.2.2)
  close := fun fd s => ((w.close fd s.1).1, (w.close fd s.1).2, s.2)

/-- The names that `readdir(3)` returns are strings without a slash. -/
def Named {σ δ : Type} (w : World σ δ) : Prop := ∀ p s names fault t, w.opendir p s = (.ok (names, fault), t) → ∀ n ∈ names, 0#8 ∉ n ∧ 47#8 ∉ n

/-- What looks like a path. -/
def Pathlike (s : Name) : Prop := [47#8] <+: s ∨ [46#8, 47#8] <+: s ∨ [46#8, 46#8, 47#8] <+: s

/-- An optional sign and what is after it; a sign that is there belongs to the former. -/
inductive Signed : Name → Bool → Name → Prop
  | minus (t : Name) : Signed (45#8 :: t) true t
  | plus (t : Name) : Signed (43#8 :: t) false t
  | none (t : Name) : (∀ u, t ≠ 45#8 :: u ∧ t ≠ 43#8 :: u) → Signed t false t

/-- The value that `strtoul(3)` has for a numeral after a sign. -/
def Value (negative : Bool) (n v : Nat) : Prop :=
  if n < 2 ^ 64 then (if negative then v < 2 ^ 64 ∧ (v + n) % 2 ^ 64 = 0 else v = n) else v = 2 ^ 64 - 1

end Diminuto.Line
