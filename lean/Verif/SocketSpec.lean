import Verif.Socket

/-!
# Specification: sockets, and system calls that do what they should or fail

The state of the system, as far as it matters, is a table of the open sockets and the set of the paths in the file system at which a local socket has been bound.
-/

namespace Diminuto.Socket

/-- A socket: what it is, what it is bound to (an address and an interface, "" for all of them), its backlog if it listens, and what it is connected to. -/
structure Sock where
  domain : Domain
  style : Style
  bound : Option Addr := none
  device : List Byte := []
  backlog : Option Int := none
  peer : Option Addr := none
deriving DecidableEq

/-- A table with another entry. -/
def put (t : Int → Option Sock) (fd : Int) (k : Option Sock) : Int → Option Sock := fun x => if x = fd then k else t x

/-- The path in an address: up to the first NUL. -/
def Addr.path : Addr → List Byte → Prop
  | .unix sun, p => p = sun.takeWhile (· ≠ 0#8)
  | _, _ => False

/-- System calls that do what they should or fail and then have no effect; nothing is said about calls for a socket that is not open, so such calls must not be made.
Closing a socket removes it from the table even if the call fails; it does not remove a path. -/
structure Honest {σ : Type} (w : World σ) (table : σ → Int → Option Sock) (paths : σ → List Byte → Prop) : Prop where
  socket : ∀ d k s,
    ((w.socket d k s).1 < 0 ∧ table (w.socket d k s).2 = table s ∧ ∀ p, paths (w.socket d k s).2 p ↔ paths s p) ∨
    (0 ≤ (w.socket d k s).1 ∧ table s (w.socket d k s).1 = none ∧
      table (w.socket d k s).2 = put (table s) (w.socket d k s).1 (some { domain := d, style := k }) ∧ ∀ p, paths (w.socket d k s).2 p ↔ paths s p)
  bind : ∀ fd a s k, table s fd = some k →
    ((w.bind fd a s).1 < 0 ∧ table (w.bind fd a s).2 = table s ∧ ∀ p, paths (w.bind fd a s).2 p ↔ paths s p) ∨
    (0 ≤ (w.bind fd a s).1 ∧ table (w.bind fd a s).2 = put (table s) fd (some { k with bound := some a }) ∧
      ∀ p, paths (w.bind fd a s).2 p ↔ paths s p ∨ a.path p)
  device : ∀ fd n s k, table s fd = some k →
    ((w.device fd n s).1 ≠ .ok ∧ table (w.device fd n s).2 = table s ∧ ∀ p, paths (w.device fd n s).2 p ↔ paths s p) ∨
    ((w.device fd n s).1 = .ok ∧ table (w.device fd n s).2 = put (table s) fd (some { k with device := n }) ∧
      ∀ p, paths (w.device fd n s).2 p ↔ paths s p)
  listen : ∀ fd b s k, table s fd = some k →
    ((w.listen fd b s).1 < 0 ∧ table (w.listen fd b s).2 = table s ∧ ∀ p, paths (w.listen fd b s).2 p ↔ paths s p) ∨
    (0 ≤ (w.listen fd b s).1 ∧ table (w.listen fd b s).2 = put (table s) fd (some { k with backlog := some b }) ∧
      ∀ p, paths (w.listen fd b s).2 p ↔ paths s p)
  connect : ∀ fd a s k, table s fd = some k →
    ((w.connect fd a s).1 < 0 ∧ table (w.connect fd a s).2 = table s ∧ ∀ p, paths (w.connect fd a s).2 p ↔ paths s p) ∨
    (0 ≤ (w.connect fd a s).1 ∧ table (w.connect fd a s).2 = put (table s) fd (some { k with peer := some a }) ∧
      ∀ p, paths (w.connect fd a s).2 p ↔ paths s p)
  close : ∀ fd s k, table s fd = some k → table (w.close fd s) = put (table s) fd none ∧ ∀ p, paths (w.close fd s) p ↔ paths s p

/-- The function of the caller may set options of the socket, but leaves it open, and leaves what is in the table. -/
def Decent {σ : Type} (table : σ → Int → Option Sock) (paths : σ → List Byte → Prop) (f : Option (Int → σ → Int × σ)) : Prop :=
  ∀ g, f = some g → ∀ fd s k, table s fd = some k → table (g fd s).2 = table s ∧ ∀ p, paths (g fd s).2 p ↔ paths s p

/-- No call fails (for a socket that is open). -/
structure Reliable {σ : Type} (w : World σ) (table : σ → Int → Option Sock) (f : Option (Int → σ → Int × σ)) : Prop where
  socket : ∀ d k s, 0 ≤ (w.socket d k s).1
  bind : ∀ fd a s k, table s fd = some k → 0 ≤ (w.bind fd a s).1
  device : ∀ fd n s k, table s fd = some k → (w.device fd n s).1 = .ok
  listen : ∀ fd b s k, table s fd = some k → 0 ≤ (w.listen fd b s).1
  connect : ∀ fd a s k, table s fd = some k → 0 ≤ (w.connect fd a s).1
  inject : ∀ g, f = some g → ∀ fd s k, table s fd = some k → 0 ≤ (g fd s).1

/-- A socket has been made: the descriptor is new, the socket is as it should be, the other sockets are as before, and so are the paths apart from the new ones. -/
def Made {σ : Type} (table : σ → Int → Option Sock) (paths : σ → List Byte → Prop) (s : σ) (r : Int × σ) (P : Sock → Prop) (new : List Byte → Prop) : Prop :=
  0 ≤ r.1 ∧ table s r.1 = none ∧ (∃ k, P k ∧ table r.2 = put (table s) r.1 (some k)) ∧ ∀ p, paths r.2 p ↔ paths s p ∨ new p

/-- An error is returned, and all is as before. -/
def Undone {σ : Type} (table : σ → Int → Option Sock) (paths : σ → List Byte → Prop) (s : σ) (r : Int × σ) : Prop :=
  r.1 < 0 ∧ table r.2 = table s ∧ ∀ p, paths r.2 p ↔ paths s p

/-- An error is returned, and the sockets are as before, but a new path may be left. -/
def Closed {σ : Type} (table : σ → Int → Option Sock) (paths : σ → List Byte → Prop) (s : σ) (r : Int × σ) (new : List Byte → Prop) : Prop :=
  r.1 < 0 ∧ table r.2 = table s ∧ (∀ p, paths s p → paths r.2 p) ∧ ∀ p, paths r.2 p → paths s p ∨ new p

/-- The backlog is what was asked for, or the default, which is the largest that has an effect, for a negative one. -/
def Backlog (asked used : Int) : Prop :=
  (0 ≤ asked → asked ≤ 4096 → used = asked) ∧ (asked < 0 ∨ 4096 < asked → 4096 ≤ used)

/-- The address of a path, or none if the socket is to be unnamed. -/
def Named (p : List Byte) (a : Option Addr) : Prop :=
  (p = [] → a = none) ∧ (p ≠ [] → ∃ n, p.length + n = 108 ∧ a = some (.unix (p ++ List.replicate n 0#8)))

/-- The path that a socket bound to a path has in the file system. -/
def At (p q : List Byte) : Prop := p ≠ [] ∧ q = p

/-! ## A system, for examples -/

/-- The sockets by descriptor, and the paths. -/
structure K where
  socks : List (Option Sock)
  paths : List (List Byte)

/-- The table of a system. -/
def K.table (s : K) (fd : Int) : Option Sock := if 0 ≤ fd then (s.socks[fd.toNat]?).join else none

/-- The paths of a system. -/
def K.has (s : K) (p : List Byte) : Prop := p ∈ s.paths

/-- A socket is changed. -/
def K.change (s : K) (fd : Int) (f : Sock → Sock) : K := { s with socks := s.socks.set fd.toNat ((s.table fd).map f) }

/-- A system in which `connect(2)` succeeds or not and nothing else fails. -/
def kernel (connects : Bool) : World K where
  socket d y s := (s.socks.length, { s with socks := s.socks ++ [some { domain := d, style := y }] })
  bind fd a s := (0, { s.change fd (fun k => { k with bound := some a }) with paths := match a with
    | .unix sun => sun.takeWhile (· ≠ 0#8) :: s.paths
    | _ => s.paths })
  device fd n s := (.ok, s.change fd (fun k => { k with device := n }))
  listen fd b s := (0, s.change fd (fun k => { k with backlog := some b }))
  connect fd a s := if connects then (0, s.change fd (fun k => { k with peer := some a })) else (-1, s)
  close fd s := { s with socks := s.socks.set fd.toNat none }

end Diminuto.Socket
