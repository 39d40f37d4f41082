import Verif.Datagram

/-!
# Specification: datagrams
-/

namespace Diminuto.Datagram

/-- The number that some bytes are in the order of the network. -/
def big (l : List Byte) : Nat := l.foldl (fun n b => 256 * n + b.toNat) 0

/-- A socket address is that of this IPv4 address and this port. -/
def Is4 (n : Name) (address port : Nat) : Prop := ∃ p b, n = .in4 p b ∧ big [p 0, p 1] = port ∧ big [b 0, b 1, b 2, b 3] = address

/-- A socket address is that of this IPv6 address, which has eight words, and this port, at this interface. -/
def Is6 (n : Name) (address : Fin 8 → Nat) (port : Nat) (scope : Nat) : Prop :=
  ∃ p b z, n = .in6 p b z ∧ big [p 0, p 1] = port ∧ (∀ j : Fin 8, big [b ⟨2 * j, by omega⟩, b ⟨2 * j + 1, by omega⟩] = address j) ∧ z.toNat = scope

/-- A local socket address is that of this path: 108 bytes, the path and nothing but zeros. -/
def Isl (n : Name) (path : List Byte) : Prop := path ≠ [] ∧ 0#8 ∉ path ∧ path.length ≤ 108 ∧ n = .un (path ++ List.replicate (108 - path.length) 0#8)

/-- What a function says of a call that has failed. -/
def Tells (e : Errno) (told : Bool) : Prop := told = true ↔ e ≠ .intr ∧ e ≠ .again

/-- The result of a function that sends, and the state, if this is the result of the system call. -/
def Says {σ : Type} (call : Except Errno Nat × σ) (r : (Int × Bool) × σ) : Prop :=
  (∀ n s, call = (.ok n, s) → r = (((n : Int), false), s)) ∧ ∀ e s, call = (.error e, s) → ∃ t, Tells e t ∧ r = ((-1, t), s)

/-- The families for which a name is looked up: IPv6, IPv4 and then any, until this succeeds. -/
def Tried (get : Family → Info) (fs : List Family) : Prop :=
  (fs = [.inet6] ∧ (get .inet6).ok = true) ∨ (fs = [.inet6, .inet] ∧ (get .inet6).ok = false ∧ (get .inet).ok = true) ∨
  (fs = [.inet6, .inet, .unspec] ∧ (get .inet6).ok = false ∧ (get .inet).ok = false)

/-- The list of the last family, if that succeeded and there is one. -/
def found (get : Family → Info) (fs : List Family) : Option (List (Option Address.Sock)) :=
  match fs.getLast? with
  | some f => if (get f).ok then (get f).list else none
  | none => none

/-- Each list that is got is freed before anything else is asked for, and once. -/
def Balanced (get : Family → Info) (fs : List Family) (log : List Deed) : Prop :=
  log = fs.flatMap fun f => if (get f).list.isSome then [.asked f, .freed f] else [.asked f]

/-- A host as `gethostbyname(3)` has it for IPv4: addresses of four bytes, and at least one.  The length that comes with it may be greater, since no more than an address is copied. -/
def Proper (h : Host) : Prop := h.inet = true ∧ 4 ≤ h.length ∧ h.list ≠ [] ∧ ∀ b ∈ h.list, b.length = 4

end Diminuto.Datagram
