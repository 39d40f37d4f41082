import Verif.Pin
import Verif.EndpointTextSpec

/-!
# Specification: pins
-/

namespace Diminuto.Pin

/-- A call that was made, with what it did. -/
inductive Event where
  | stat (file : Name) (a : Answer Unit)
  | fopen (file : Name) (write : Bool) (a : Answer Nat)
  | fputs (h : Nat) (t : Name) (p : Put)
  | fflush (h : Nat) (p : Put)
  | fclose (h : Nat) (ok : Bool)
  | delay (ticks : BitVec 64)
  | lseek (h : Nat) (ok : Bool)
  | write (h : Nat) (t : Name) (n : Int)
  | read (h n : Nat) (t : Option Name)
deriving DecidableEq, Repr

/-- The calls, with a note of them in the state. -/
def noting {σ : Type} (w : World σ) : World (σ × List Event) where
  stat := fun f s => let r := w.stat f s.1; (r.1, r.2, s.2 ++ [.stat f r.1])
  fopen := fun f b s => let r := w.fopen f b s.1; (r.1, r.2, s.2 ++ [.fopen f b r.1])
  fputs := fun h t s => let r := w.fputs h t s.1; (r.1, r.2, s.2 ++ [.fputs h t r.1])
  fflush := fun h s => let r := w.fflush h s.1; (r.1, r.2, s.2 ++ [.fflush h r.1])
  fclose := fun h s => let r := w.fclose h s.1; (r.1, r.2, s.2 ++ [.fclose h r.1])
  delay := fun d s => (w.delay d s.1, s.2 ++ [.delay d])
  lseek := fun h s => let r := w.lseek h s.1; (r.1, r.2, s.2 ++ [.lseek h r.1])
  write := fun h t s => let r := w.write h t s.1; (r.1, r.2, s.2 ++ [.write h t r.1])
  read := fun h n s => let r := w.read h n s.1; (r.1, r.2, s.2 ++ [.read h n r.1])

/-- The call asks for the state of a file. -/
def Event.isStat : Event → Bool
  | .stat _ _ => true
  | _ => false

/-- The call waits. -/
def Event.isDelay : Event → Bool
  | .delay _ => true
  | _ => false

/-- The streams that are opened, less those that are closed, in a sequence of calls. -/
def streams : List Event → List Nat
  | [] => []
  | .fopen _ _ (.ok h) :: l => h :: streams l
  | _ :: l => streams l

/-- The streams that are closed. -/
def closed : List Event → List Nat
  | [] => []
  | .fclose h _ :: l => h :: closed l
  | _ :: l => closed l

/-- The call looks for a file, without success, or waits. -/
def Waits (file : Name) (ticks : BitVec 64) (e : Event) : Prop :=
  e = .stat file .transient ∨ e = .stat file (.ok ()) ∨ e = .fopen file true .transient ∨ e = .delay ticks

/-- The calls that write a string to a file and succeed, or fail with `EINVAL` and that is to be ignored. -/
def Writes (file string : Name) (ignore : Bool) (l : List Event) : Prop :=
  ∃ h p q, l = [.stat file (.ok ()), .fopen file true (.ok h), .fputs h string p, .fflush h q, .fclose h true] ∧
    (p = .ok ∨ p = .invalid ∧ ignore = true) ∧ (q = .ok ∨ q = .invalid ∧ ignore = true)

/-- A function succeeds exactly if it has written a string to a file, after attempts and waiting; every stream it has opened it has closed, whatever happens. -/
def Sets {σ : Type} (ticks : BitVec 64) (file string : Name) (ignore : Bool) (run : σ × List Event → Bool × σ × List Event) : Prop :=
  ∀ s, ∃ l s' r, run (s, []) = (r, s', l) ∧ closed l = streams l ∧ (r = true ↔ ∃ pre last, l = pre ++ last ∧ (∀ e ∈ pre, Waits file ticks e) ∧ Writes file string ignore last)

/-- The name of a file of the kernel, as documented: the number of the pin is in decimal digits. -/
def Names (root : Name) (a : Attr) (pin : Nat) (f : Name) : Prop :=
  match a with
  | .export => f = root ++ ascii "/class/gpio/export"
  | .unexport => f = root ++ ascii "/class/gpio/unexport"
  | .direction => ∃ d, EndpointText.Decimal d pin ∧ f = root ++ ascii "/class/gpio/gpio" ++ d ++ ascii "/direction"
  | .activelow => ∃ d, EndpointText.Decimal d pin ∧ f = root ++ ascii "/class/gpio/gpio" ++ d ++ ascii "/active_low"
  | .edge => ∃ d, EndpointText.Decimal d pin ∧ f = root ++ ascii "/class/gpio/gpio" ++ d ++ ascii "/edge"
  | .value => ∃ d, EndpointText.Decimal d pin ∧ f = root ++ ascii "/class/gpio/gpio" ++ d ++ ascii "/value"

/-- A kernel with the files of one pin, which are there some time after it is exported.  A stream is of a file, for writing or not, and has characters that are not written yet. -/
structure Kernel where
  exported : Bool
  lag : Nat
  output : Bool
  value : Bool
  streams : List (Nat × Attr × Bool × Name)
  next : Nat
deriving DecidableEq, Repr

/-- The file with a name. -/
def lookup (root : Name) (pin : Nat) (file : Name) : Option Attr :=
  [Attr.export, .unexport, .direction, .activelow, .edge, .value].find? fun a => file = path root a pin

/-- The file is there. -/
def Kernel.has (k : Kernel) : Option Attr → Bool
  | none => false
  | some .export => true
  | some .unexport => true
  | some _ => k.exported && k.lag == 0

/-- A string is written to a file. -/
def Kernel.store (k : Kernel) (pin : Nat) (a : Attr) (t : Name) : Put × Kernel :=
  match a with
  | .export => if t ≠ line pin then (.invalid, k) else if k.exported then (.other, k) else (.ok, { k with exported := true })
  | .unexport => if t = line pin ∧ k.exported then (.ok, { k with exported := false }) else (.invalid, k)
  | .direction => if t = ascii "out\n" then (.ok, { k with output := true }) else if t = ascii "in\n" then (.ok, { k with output := false }) else (.invalid, k)
  | .value => if t = ascii "1\n" ∧ k.output then (.ok, { k with value := true }) else if t = ascii "0\n" ∧ k.output then (.ok, { k with value := false }) else (.other, k)
  | _ => (.ok, k)

/-- The calls of the kernel. -/
def kernel (root : Name) (pin : Nat) : World Kernel where
  stat := fun f k => (if k.has (lookup root pin f) then .ok () else .transient, k)
  fopen := fun f b k =>
    match lookup root pin f with
    | none => (.transient, k)
    | some a => if k.has (some a) then (.ok k.next, { k with streams := (k.next, a, b, []) :: k.streams, next := k.next + 1 }) else (.transient, k)
  fputs := fun h t k =>
    match k.streams.find? (·.1 = h) with
    | some (_, a, true, u) => (.ok, { k with streams := (h, a, true, u ++ t) :: k.streams.filter (·.1 ≠ h) })
    | _ => (.other, k)
  fflush := fun h k =>
    match k.streams.find? (·.1 = h) with
    | some (_, a, true, u) => k.store pin a u
    | _ => (.other, k)
  fclose := fun h k => (true, { k with streams := k.streams.filter (·.1 ≠ h) })
  delay := fun _ k => { k with lag := k.lag - 1 }
  lseek := fun _ k => (true, k)
  write := fun h t k =>
    match k.streams.find? (·.1 = h) with
    | some (_, a, true, _) =>
      match k.store pin a t with
      | (.ok, k) => (t.length, k)
      | (_, k) => (-1, k)
    | _ => (-1, k)
  read := fun h n k =>
    match k.streams.find? (·.1 = h) with
    | some (_, .value, false, _) => (some ((if k.value then ascii "1\n" else ascii "0\n").take n), k)
    | _ => (none, k)

/-- No stream has a number that will be used. -/
def Kernel.Fresh (k : Kernel) : Prop := ∀ x ∈ k.streams, x.1 < k.next

end Diminuto.Pin
