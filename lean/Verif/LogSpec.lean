import Verif.Log
import Verif.NumberSpec
import Verif.SectionSpec

/-!
# What the Log feature is meant to do
-/

namespace Diminuto.Log
open Number (Reads)

/-- The bit of a priority: the most urgent is the most significant of eight. -/
def HasBit (m : BitVec 32) (priority : Nat) : Prop := m.toNat.testBit (7 - priority) = true

/-- The first line of a text. -/
def FirstLine (l f : List Byte) : Prop := 10#8 ∉ f ∧ (l = f ∨ ∃ rest, l = f ++ 10#8 :: rest)

/-- What may follow the number in a file: nothing, a space, a tab, or a comment. -/
def Tail (r : List Byte) : Prop := r = [] ∨ ∃ c t, r = c :: t ∧ (c = 32#8 ∨ c = 9#8 ∨ c = 35#8)

/-- A text as a line, with a newline at its end. -/
def ended (l : List Byte) : List Byte := if l.getLast? = some 10#8 then l else l ++ [10#8]

/-- A line of limited length. -/
def limited (n : Nat) (l : List Byte) : List Byte := if (ended l).length ≤ n then ended l else l.take (n - 1) ++ [10#8]

/-- The kernel appends to the content of a file what it returns to have written, which is not more than it was given, or it fails. -/
def Honest {σ : Type} (k : Kernel σ) (content : σ → List Byte) : Prop :=
  ∀ d s r e s', k.write d s = (r, e, s') → (r = -1 ∧ content s' = content s) ∨ ∃ n : Nat, r = n ∧ n ≤ d.length ∧ content s' = content s ++ d.take n

/-- It does not fail. -/
def Succeeds {σ : Type} (k : Kernel σ) : Prop := ∀ d s r e s', k.write d s = (r, e, s') → 0 ≤ r

/-- It always takes something. -/
def Takes {σ : Type} (k : Kernel σ) : Prop := ∀ d s r e s', k.write d s = (r, e, s') → 0 < r

/-- A kernel with a file that takes so many bytes at a time, and a list of failures to come: `true` is an interruption. -/
structure Disk where
  content : List Byte
  chunk : Nat
  failures : List Bool

/-- Its `write(2)`. -/
def disk : Kernel Disk where
  write d s :=
    match s.failures with
    | e :: es => (-1, e, { s with failures := es })
    | [] => ((min d.length s.chunk : Nat), false, { s with content := s.content ++ d.take s.chunk })

/-- What the messages of a history have added to a file, one after the other: all of each, or, if its thread was cancelled in it or messages may be `lossy`, the first bytes of it. -/
inductive Written (lossy : Bool) : List (Nat × Bool × List Byte × Section.Event Unit) → List Byte → Prop where
  | nil : Written lossy [] []
  | done {h : List (Nat × Bool × List Byte × Section.Event Unit)} {c u : List Byte} (t : Nat) (b : Bool) (d : List Byte) : Written lossy h c → (u = d ∨ lossy = true ∧ u <+: d) →
      Written lossy (h ++ [(t, b, d, .done ())]) (c ++ u)
  | cut {h : List (Nat × Bool × List Byte × Section.Event Unit)} {c u : List Byte} (t : Nat) (b : Bool) (d : List Byte) : Written lossy h c → u <+: d → Written lossy (h ++ [(t, b, d, .cut)]) (c ++ u)

/-- Lexicographic order, that of `strcmp(3)`, on strings without NUL. -/
inductive Before : List Byte → List Byte → Prop where
  | nil {b : Byte} {t : List Byte} : Before [] (b :: t)
  | head {a b : Byte} {s t : List Byte} : a.toNat < b.toNat → Before (a :: s) (b :: t)
  | tail {a : Byte} {s t : List Byte} : Before s t → Before (a :: s) (a :: t)

/-- A date and a time of a day, in a year of at most four digits. -/
def Ordinary (f : Time.Fields) : Prop :=
  0 ≤ f.year ∧ f.year ≤ 9999 ∧ 1 ≤ f.month ∧ f.month ≤ 12 ∧ 1 ≤ f.day ∧ f.day ≤ 31 ∧ 0 ≤ f.hour ∧ f.hour ≤ 23 ∧ 0 ≤ f.minute ∧ f.minute ≤ 59 ∧ 0 ≤ f.second ∧ f.second ≤ 60 ∧
  0 ≤ f.tick ∧ f.tick ≤ 999999999

/-- Earlier, from the year on down. -/
def Earlier (f g : Time.Fields) : Prop :=
  f.year < g.year ∨ f.year = g.year ∧ (f.month < g.month ∨ f.month = g.month ∧ (f.day < g.day ∨ f.day = g.day ∧ (f.hour < g.hour ∨ f.hour = g.hour ∧
    (f.minute < g.minute ∨ f.minute = g.minute ∧ (f.second < g.second ∨ f.second = g.second ∧ f.tick < g.tick)))))

/-- What the documentation says about the routes, `Diminuto/src/diminuto_log.c:503-514`, `Diminuto/inc/com/diag/diminuto/diminuto_log.h:320-340`. -/
inductive Routes : Byte → Bool → Process → Route → Prop where
  | suppress {cached : Bool} {p : Process} : Routes 88#8 cached p .suppressed
  | stderr {cached : Bool} {p : Process} : Routes 69#8 cached p .descriptor
  | syslog {cached : Bool} {p : Process} : Routes 83#8 cached p .syslog
  | before {p : Process} : Routes 65#8 true p .syslog
  | file {p : Process} (hf : p.tty = false ∧ p.stat = some FILE) : Routes 65#8 false p .descriptor
  | daemon {p : Process} (hf : ¬ (p.tty = false ∧ p.stat = some FILE)) (hd : p.leader = true ∨ p.orphan = true) : Routes 65#8 false p .syslog
  | interactive {p : Process} (hf : ¬ (p.tty = false ∧ p.stat = some FILE)) (hd : p.leader = false ∧ p.orphan = false) : Routes 65#8 false p .descriptor

/-- The names of the priorities, from the most urgent one on. -/
def names : List (List Byte) := ["EMER", "ALRT", "CRIT", "EROR", "WARN", "NOTE", "INFO", "DBUG"].map Pin.ascii

/-- Once a message has gone to the system log, those after it do. -/
def NeverBack (l : List Route) : Prop := ∀ a b, l = a ++ Route.syslog :: b → ∀ r ∈ b, r = .syslog

end Diminuto.Log
