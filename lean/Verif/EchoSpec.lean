import Verif.Echo
import Verif.DatagramSpec
import Verif.ShaperToolSpec

/-!
# Specification: how the tool for the Internet provides and consumes

The bytes that a source comes to, and the reader that takes what it is given, are those of the tool that shapes traffic.
-/

namespace Diminuto.Echo

open Diminuto.Fd (Source Sink)
open Diminuto.ShaperTool (content Willing)
open Diminuto.Datagram (Is4 Is6)

/-- Two lists, one element of one for one of the other. -/
inductive Each {α β : Type} (R : α → β → Prop) : List α → List β → Prop where
  | nil : Each R [] []
  | cons {a : α} {b : β} {l : List α} {m : List β} (h : R a b) (t : Each R l m) : Each R (a :: l) (b :: m)

/-- The connections that there are, as they are at first. -/
def arrived (rs : List Round) : List Client := rs.filterMap fun r =>
  match r.accept with
  | some (.client c _) => some c
  | _ => none

/-- What a connection comes to: what has been written to it is what has been read from it, and if it has been closed that is all there was. -/
structure Echoed (a c : Client) : Prop where
  fd : c.fd = a.fd
  opened : c.opened = true → content a.input = c.said ++ content c.input
  closed : c.opened = false → c.said = content a.input

/-- A client that does not fail, reads what it is sent, and can be closed. -/
structure Polite (c : Client) : Prop where
  input : Source.error ∉ c.input
  output : Willing c.output
  closes : c.closes = true

/-- Nothing goes wrong with accepting connections: they have names and descriptors below 1024, which are different. -/
structure Accepts (rs : List Round) : Prop where
  fails : ∀ r ∈ rs, r.accept ≠ some .fails
  named : ∀ r ∈ rs, ∀ c, r.accept ≠ some (.client c false)
  small : ∀ c ∈ arrived rs, c.fd < 1024
  apart : ((arrived rs).map (·.fd)).Nodup

/-! ## Datagrams -/

section
variable {σ : Type} (w : Datagram.World σ)

/-- The kernel returns the number of bytes it has stored, which is at most what there is room for. -/
structure Sane : Prop where
  total : ∀ fd size s k s', w.recvfrom fd size 0 s = (.ok k, s') → k.total = k.data.length ∧ k.data.length ≤ size

/-- So many datagrams have been received and sent back, each to where it came from. -/
inductive Echoes4 (fd : Int) (block : Nat) : Nat → σ → σ → Prop where
  | done (s : σ) : Echoes4 fd block 0 s s
  | more {n : Nat} {s s1 s2 s' : σ} {k : Datagram.Packet} {a p : Nat} (got : w.recvfrom fd block 0 s = (.ok k, s1)) (some_ : k.data ≠ []) (from_ : Is4 k.name a p) (address : a ≠ 0) (port : p ≠ 0)
      (gave : w.sendto fd k.data 0 (some k.name) s1 = (.ok k.data.length, s2)) (rest : Echoes4 fd block n s2 s') : Echoes4 fd block (n + 1) s s'

/-- The same of IPv6; but to whichever interface. -/
inductive Echoes6 (fd : Int) (block : Nat) : Nat → σ → σ → Prop where
  | done (s : σ) : Echoes6 fd block 0 s s
  | more {n : Nat} {s s1 s2 s' : σ} {k : Datagram.Packet} {m : Datagram.Name} {a : Fin 8 → Nat} {p z : Nat} (got : w.recvfrom fd block 0 s = (.ok k, s1)) (some_ : k.data ≠ []) (from_ : Is6 k.name a p z)
      (address : ∃ j, a j ≠ 0) (port : p ≠ 0) (to : Is6 m a p 0) (gave : w.sendto fd k.data 0 (some m) s1 = (.ok k.data.length, s2)) (rest : Echoes6 fd block n s2 s') : Echoes6 fd block (n + 1) s s'

/-- Nobody has a name that is not one of IPv6. -/
def Only6 : Prop := ∀ fd size s k s', w.recvfrom fd size 0 s = (.ok k, s') → ∀ p b, k.name ≠ .in4 p b

end

/-! ## Consuming -/

/-- What passes between a consumer and the far end. -/
inductive Passed where
  | got (bs : List Byte)
  | gave (bs : List Byte)
deriving DecidableEq

/-- What has been got. -/
def gotten (l : List Passed) : List (List Byte) := l.filterMap fun | .got bs => some bs | .gave _ => none

/-- What has been given. -/
def given (l : List Passed) : List (List Byte) := l.filterMap fun | .gave bs => some bs | .got _ => none

/-- What passes on a stream: what is got is the next of what comes, and what is given goes after what has been given before. -/
inductive Streams : List Source → List Byte → List Passed → List Source → List Byte → Prop where
  | done (k : List Source) (o : List Byte) : Streams k o [] k o
  | got {k k1 k' : List Source} {o o' bs : List Byte} {l : List Passed} (h : content k = bs ++ content k1) (some_ : bs ≠ []) (rest : Streams k1 o l k' o') : Streams k o (.got bs :: l) k' o'
  | gave {k k' : List Source} {o o' bs : List Byte} {l : List Passed} (some_ : bs ≠ []) (rest : Streams k (o ++ bs) l k' o') : Streams k o (.gave bs :: l) k' o'

/-- A far end that sends, in time, and neither fails nor ends. -/
def Talkative (k : List Source) : Prop := ∀ e ∈ k, ∃ b bs, e = .data (b :: bs)

/-- What passes with datagrams of IPv4: what is got is from anybody with the right port, and what is given goes to the server. -/
inductive Packets4 {σ : Type} (w : Datagram.World σ) (fd : Int) (block server rendezvous : Nat) : σ → List Passed → σ → Prop where
  | done (s : σ) : Packets4 w fd block server rendezvous s [] s
  | got {s s1 s' : σ} {k : Datagram.Packet} {a : Nat} {l : List Passed} (h : w.recvfrom fd block 0 s = (.ok k, s1)) (some_ : k.data ≠ []) (from_ : Is4 k.name a rendezvous)
      (rest : Packets4 w fd block server rendezvous s1 l s') : Packets4 w fd block server rendezvous s (.got k.data :: l) s'
  | gave {s s1 s' : σ} {n : Datagram.Name} {bs : List Byte} {l : List Passed} (some_ : bs ≠ []) (to : Is4 n server rendezvous) (h : w.sendto fd bs 0 (some n) s = (.ok bs.length, s1))
      (rest : Packets4 w fd block server rendezvous s1 l s') : Packets4 w fd block server rendezvous s (.gave bs :: l) s'

/-- The same of IPv6. -/
inductive Packets6 {σ : Type} (w : Datagram.World σ) (fd : Int) (block : Nat) (server : Fin 8 → Nat) (rendezvous : Nat) : σ → List Passed → σ → Prop where
  | done (s : σ) : Packets6 w fd block server rendezvous s [] s
  | got {s s1 s' : σ} {k : Datagram.Packet} {a : Fin 8 → Nat} {z : Nat} {l : List Passed} (h : w.recvfrom fd block 0 s = (.ok k, s1)) (some_ : k.data ≠ []) (from_ : Is6 k.name a rendezvous z)
      (rest : Packets6 w fd block server rendezvous s1 l s') : Packets6 w fd block server rendezvous s (.got k.data :: l) s'
  | gave {s s1 s' : σ} {n : Datagram.Name} {bs : List Byte} {l : List Passed} (some_ : bs ≠ []) (to : Is6 n server rendezvous 0) (h : w.sendto fd bs 0 (some n) s = (.ok bs.length, s1))
      (rest : Packets6 w fd block server rendezvous s1 l s') : Packets6 w fd block server rendezvous s (.gave bs :: l) s'

end Diminuto.Echo
