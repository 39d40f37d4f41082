import Verif.DatagramLemmas

/-!
# Properties of datagrams
-/

namespace Diminuto.Datagram

open Address (V4 V6 identify4 identify6)

variable {σ : Type} (w : World σ)

/-! ## Internet sockets -/

/-- A datagram is sent with one call, as it is, to the IPv4 address and the port that are given; without a port there is no destination.  The result is that of the call, and there is a message exactly if
it failed but for an interrupt or for that it would wait. -/
theorem datagram_send4 (le : Bool) (fd : Int) (data : List Byte) (a : V4) (port : BitVec 16) (flags : Int) (s : σ) :
    ∃ dest, (port = 0 → dest = none) ∧ (port ≠ 0 → ∃ n, dest = some n ∧ Is4 n a.toNat port.toNat) ∧ Says (w.sendto fd data flags dest s) (send4 w le fd data a port flags s) := by
  refine ⟨_, ?_, ?_, says_report _⟩
  · intro h; rw [h]; rfl
  · intro h
    have : port.toNat > 0 := Nat.pos_of_ne_zero fun e => h (BitVec.eq_of_toNat_eq e)
    exact ⟨_, by rw [if_pos this], is4_name le a port⟩

/-- The same of IPv6; the interface is left open. -/
theorem datagram_send6 (le : Bool) (fd : Int) (data : List Byte) (a : V6) (port : BitVec 16) (flags : Int) (s : σ) :
    ∃ dest, (port = 0 → dest = none) ∧ (port ≠ 0 → ∃ n, dest = some n ∧ Is6 n (fun j => (a j).toNat) port.toNat 0) ∧ Says (w.sendto fd data flags dest s) (send6 w le fd data a port flags s) := by
  refine ⟨_, ?_, ?_, says_report _⟩
  · intro h; rw [h]; rfl
  · intro h
    have : port.toNat > 0 := Nat.pos_of_ne_zero fun e => h (BitVec.eq_of_toNat_eq e)
    exact ⟨_, by rw [if_pos this], is6_name le a port⟩

/-- A datagram that is not empty is received with one call, and the address and the port of the sender are stored wherever they are asked for. -/
theorem datagram_receive4_partial (le : Bool) (fd : Int) (size : Nat) (flags : Int) (addressp : Option V4) (portp : Option (BitVec 16)) {s s' : σ} {k : Packet}
    (hr : w.recvfrom fd size flags s = (.ok k, s')) (ht : 0 < k.total) {a p : Nat} (hk : Is4 k.name a p) :
    ∃ (x : V4) (y : BitVec 16), x.toNat = a ∧ y.toNat = p ∧
      receive4 w le fd size flags addressp portp s = (⟨k.total, k.data, (addressp.map fun _ => x, portp.map fun _ => y), false⟩, s') := by
  refine ⟨_, _, (identify4_value le hk).1, (identify4_value le hk).2, ?_⟩
  unfold receive4
  rw [hr]
  exact if_pos ht

/-- The same of IPv6. -/
theorem datagram_receive6_partial (le : Bool) (fd : Int) (size : Nat) (flags : Int) (addressp : Option V6) (portp : Option (BitVec 16)) {s s' : σ} {k : Packet}
    (hr : w.recvfrom fd size flags s = (.ok k, s')) (ht : 0 < k.total) {a : Fin 8 → Nat} {p z : Nat} (hk : Is6 k.name a p z) :
    ∃ (x : V6) (y : BitVec 16), (∀ j, (x j).toNat = a j) ∧ y.toNat = p ∧
      receive6 w le fd size flags addressp portp s = (⟨k.total, k.data, (addressp.map fun _ => x, portp.map fun _ => y), false⟩, s') := by
  have key : ∀ old, (identify6 le old k.name.sock).2.1 = (identify6 le Address.UNSPECIFIED k.name.sock).2.1 := by
    intro old
    funext j
    exact BitVec.eq_of_toNat_eq (((identify6_value le old hk).1 j).trans ((identify6_value le Address.UNSPECIFIED hk).1 j).symm)
  obtain ⟨hx, hy⟩ := identify6_value le Address.UNSPECIFIED hk
  refine ⟨(identify6 le Address.UNSPECIFIED k.name.sock).2.1, (identify6 le Address.UNSPECIFIED k.name.sock).2.2, hx, hy, ?_⟩
  unfold receive6
  rw [hr]
  have e : (fun old => (identify6 le old k.name.sock).2.1) = fun _ => (identify6 le Address.UNSPECIFIED k.name.sock).2.1 := funext key
  rw [← e]
  exact if_pos ht

/-- A datagram of IPv4 that an IPv6 function receives is from the address of IPv6 that the one of IPv4 is embedded in; one that is of another family is from nowhere, for either. -/
theorem datagram_receive_other (le : Bool) (fd : Int) (size : Nat) (flags : Int) {s s' : σ} {k : Packet} (hr : w.recvfrom fd size flags s = (.ok k, s')) (ht : 0 < k.total) :
    (∀ a p (old : V6) (oldp : BitVec 16), Is4 k.name a p → ∃ (x : V6) (y : BitVec 16), (∀ j : Fin 8, (x j).toNat = Address.mapped a j) ∧ y.toNat = p ∧
      receive6 w le fd size flags (some old) (some oldp) s = (⟨k.total, k.data, (some x, some y), false⟩, s')) ∧
    ((∀ a p, ¬ Is4 k.name a p) → ∀ (old : V4) (oldp : BitVec 16), receive4 w le fd size flags (some old) (some oldp) s = (⟨k.total, k.data, (some 0, some 0), false⟩, s')) ∧
    ((∀ a p, ¬ Is4 k.name a p) → (∀ a p z, ¬ Is6 k.name a p z) → ∀ (old : V6) (oldp : BitVec 16),
      receive6 w le fd size flags (some old) (some oldp) s = (⟨k.total, k.data, (some fun _ => 0, some 0), false⟩, s')) := by
  refine ⟨fun a p old oldp hk => ?_, fun hk old oldp => ?_, fun h4 h6 old oldp => ?_⟩
  · obtain ⟨q, b, e, hq, hb⟩ := hk
    refine ⟨(identify6 le old k.name.sock).2.1, (identify6 le Address.UNSPECIFIED k.name.sock).2.2, fun j => ?_, ?_, ?_⟩
    · rw [e, ← hb, ← number_addr, ← Address.swap_load32 le]
      exact Address.ipv4toipv6_words le old _ j
    · rw [e, ← hq]; exact port_value le q
    · unfold receive6
      rw [hr]
      exact if_pos ht
  · unfold receive4
    rw [hr]
    simp only [if_pos ht]
    cases hn : k.name with
    | in4 q b => exact (hk _ _ ⟨q, b, hn, rfl, rfl⟩).elim
    | in6 _ _ _ => rfl
    | un _ => rfl
    | other => rfl
  · unfold receive6
    rw [hr]
    simp only [if_pos ht]
    cases hn : k.name with
    | in4 q b => exact (h4 _ _ ⟨q, b, hn, rfl, rfl⟩).elim
    | in6 q b z => exact (h6 _ _ _ ⟨q, b, z, hn, rfl, fun _ => rfl, rfl⟩).elim
    | un _ => rfl
    | other => rfl

/-- If nothing is received, the variables are as they were, and there is a message exactly if it failed but for an interrupt or for that it would wait. -/
theorem datagram_failed (le : Bool) (fd : Int) (size : Nat) (flags : Int) {s s' : σ} {e : Errno} (hr : w.recvfrom fd size flags s = (.error e, s')) :
    ∃ t, Tells e t ∧ (∀ addressp portp, receive4 w le fd size flags addressp portp s = (⟨-1, [], (addressp, portp), t⟩, s')) ∧
      (∀ addressp portp, receive6 w le fd size flags addressp portp s = (⟨-1, [], (addressp, portp), t⟩, s')) ∧
      ∀ pathp, receivel w fd size flags pathp s = some (⟨-1, [], pathp, t⟩, s') := by
  refine ⟨e.told, tells_told e, fun _ _ => ?_, fun _ _ => ?_, fun _ => ?_⟩
  · unfold receive4; rw [hr]
  · unfold receive6; rw [hr]
  · unfold receivel; rw [hr]

/-- What is sent to the address and the port that were stored, by whatever host, goes to the socket that the datagram has come from, if this was not empty and that has a port. -/
theorem datagram_reply4_partial (le le' : Bool) (fd : Int) (size : Nat) (flags : Int) (old : V4) (oldp : BitVec 16) {s s' : σ} {k : Packet}
    (hr : w.recvfrom fd size flags s = (.ok k, s')) (ht : 0 < k.total) {a p : Nat} (hk : Is4 k.name a p) (hp : p ≠ 0) :
    ∃ x y, (receive4 w le fd size flags (some old) (some oldp) s).1.sender = (some x, some y) ∧
      ∀ (fd' : Int) (data : List Byte) (flags' : Int) (t : σ), Says (w.sendto fd' data flags' (some k.name) t) (send4 w le' fd' data x y flags' t) := by
  obtain ⟨x, y, hx, hy, h⟩ := datagram_receive4_partial w le fd size flags (some old) (some oldp) hr ht hk
  refine ⟨x, y, by rw [h]; rfl, fun fd' data flags' t => ?_⟩
  obtain ⟨dest, _, hd, hs⟩ := datagram_send4 w le' fd' data x y flags' t
  obtain ⟨n, rfl, hn⟩ := hd (fun e => hp (by rw [← hy, e]; rfl))
  rw [hx, hy] at hn
  rw [is4_unique hk hn]
  exact hs

/-- The same of IPv6, if the socket is not of a particular interface. -/
theorem datagram_reply6_partial (le le' : Bool) (fd : Int) (size : Nat) (flags : Int) (old : V6) (oldp : BitVec 16) {s s' : σ} {k : Packet}
    (hr : w.recvfrom fd size flags s = (.ok k, s')) (ht : 0 < k.total) {a : Fin 8 → Nat} {p : Nat} (hk : Is6 k.name a p 0) (hp : p ≠ 0) :
    ∃ x y, (receive6 w le fd size flags (some old) (some oldp) s).1.sender = (some x, some y) ∧
      ∀ (fd' : Int) (data : List Byte) (flags' : Int) (t : σ), Says (w.sendto fd' data flags' (some k.name) t) (send6 w le' fd' data x y flags' t) := by
  obtain ⟨x, y, hx, hy, h⟩ := datagram_receive6_partial w le fd size flags (some old) (some oldp) hr ht hk
  refine ⟨x, y, by rw [h]; rfl, fun fd' data flags' t => ?_⟩
  obtain ⟨dest, _, hd, hs⟩ := datagram_send6 w le' fd' data x y flags' t
  obtain ⟨n, rfl, hn⟩ := hd (fun e => hp (by rw [← hy, e]; rfl))
  rw [hy, show (fun j => (x j).toNat) = a from funext hx] at hn
  rw [is6_unique hk hn]
  exact hs

/-- What is sent to the near end of a socket, or to its far end, as it is told, goes to the socket that is named; if it cannot be told, the variables are as they were. -/
theorem datagram_end_partial (le le' : Bool) (call : Int → σ → Except Errno Name × σ) (fd : Int) (s s' : σ) :
    (∀ n a p, call fd s = (.ok n, s') → Is4 n a p → p ≠ 0 → ∀ (old : V4) (oldp : BitVec 16), ∃ x y, end4 le call fd (some old) (some oldp) s = ((0, (some x, some y), false), s') ∧
      ∀ (fd' : Int) (data : List Byte) (flags' : Int) (t : σ), Says (w.sendto fd' data flags' (some n) t) (send4 w le' fd' data x y flags' t)) ∧
    (∀ n a p, call fd s = (.ok n, s') → Is6 n a p 0 → p ≠ 0 → ∀ (old : V6) (oldp : BitVec 16), ∃ x y, end6 le call fd (some old) (some oldp) s = ((0, (some x, some y), false), s') ∧
      ∀ (fd' : Int) (data : List Byte) (flags' : Int) (t : σ), Says (w.sendto fd' data flags' (some n) t) (send6 w le' fd' data x y flags' t)) ∧
    ∀ e, call fd s = (.error e, s') → (∀ addressp portp, end4 le call fd addressp portp s = ((-1, (addressp, portp), true), s')) ∧
      (∀ addressp portp, end6 le call fd addressp portp s = ((-1, (addressp, portp), true), s')) ∧ ∀ pathp, endl call fd pathp s = some ((-1, pathp, true), s') := by
  refine ⟨fun n a p hc hk hp old oldp => ?_, fun n a p hc hk hp old oldp => ?_, fun e hc => ⟨fun _ _ => ?_, fun _ _ => ?_, fun _ => ?_⟩⟩
  · refine ⟨(identify4 le n.sock).2.1, (identify4 le n.sock).2.2, ?_, fun fd' data flags' t => ?_⟩
    · unfold end4; rw [hc]; rfl
    · obtain ⟨hx, hy⟩ := identify4_value le hk
      obtain ⟨dest, _, hd, hs⟩ := datagram_send4 w le' fd' data (identify4 le n.sock).2.1 (identify4 le n.sock).2.2 flags' t
      obtain ⟨m, rfl, hm⟩ := hd (fun e => hp (by rw [← hy, e]; rfl))
      rw [hx, hy] at hm
      rw [is4_unique hm hk] at hs
      exact hs
  · refine ⟨(identify6 le old n.sock).2.1, (identify6 le Address.UNSPECIFIED n.sock).2.2, ?_, fun fd' data flags' t => ?_⟩
    · unfold end6; rw [hc]; rfl
    · have hx := (identify6_value le old hk).1
      have hy := (identify6_value le Address.UNSPECIFIED hk).2
      obtain ⟨dest, _, hd, hs⟩ := datagram_send6 w le' fd' data (identify6 le old n.sock).2.1 (identify6 le Address.UNSPECIFIED n.sock).2.2 flags' t
      obtain ⟨m, rfl, hm⟩ := hd (fun e => hp (by rw [← hy, e]; rfl))
      rw [hy, show (fun j => ((identify6 le old n.sock).2.1 j).toNat) = a from funext hx] at hm
      rw [is6_unique hm hk] at hs
      exact hs
  · unfold end4; rw [hc]
  · unfold end6; rw [hc]
  · unfold endl; rw [hc]

/-- An empty datagram says nothing of its sender: the variables keep what they have, so that an answer goes to whoever has sent the one before, or to no one that can be told. -/
theorem datagram_empty_counterexample (le : Bool) (fd : Int) (size : Nat) (flags : Int) {s s' : σ} {k : Packet} (hr : w.recvfrom fd size flags s = (.ok k, s')) (ht : k.total = 0) :
    (∀ addressp portp, receive4 w le fd size flags addressp portp s = (⟨0, k.data, (addressp, portp), false⟩, s')) ∧
    (∀ addressp portp, receive6 w le fd size flags addressp portp s = (⟨0, k.data, (addressp, portp), false⟩, s')) ∧
    ∀ pathp, receivel w fd size flags pathp s = some (⟨0, k.data, pathp, false⟩, s') := by
  have hn : ¬ k.total > 0 := by omega
  refine ⟨fun _ _ => ?_, fun _ _ => ?_, fun _ => ?_⟩
  · unfold receive4; rw [hr]; exact if_neg hn
  · unfold receive6; rw [hr]; exact if_neg hn
  · unfold receivel; rw [hr]; exact if_neg hn

/-- What is sent to an address of IPv6 goes to no socket of a particular interface, so that no answer goes back to a link-local address. -/
theorem datagram_scope_counterexample (le : Bool) (fd : Int) (data : List Byte) (x : V6) (y : BitVec 16) (flags : Int) (s : σ) (hy : y ≠ 0) :
    ∃ m, Says (w.sendto fd data flags (some m) s) (send6 w le fd data x y flags s) ∧ ∀ a p z, z ≠ 0 → ¬ Is6 m a p z := by
  obtain ⟨dest, _, hd, hs⟩ := datagram_send6 w le fd data x y flags s
  obtain ⟨m, rfl, hm⟩ := hd hy
  refine ⟨m, hs, fun a p z hz h => ?_⟩
  obtain ⟨_, _, z0, rfl, _, _, e⟩ := hm
  obtain ⟨_, _, z1, e1, _, _, e2⟩ := h
  cases e1
  exact hz (by omega)

/-- A network that has this datagram, and takes note of the destination of each that is sent. -/
def desk (k : Packet) : World (List (Option Name)) where
  recvfrom _ _ _ s := (.ok k, s)
  sendto _ d _ n s := (.ok d.length, s ++ [n])
  getsockname _ s := (.ok .other, s)
  getpeername _ s := (.error .other, s)

/-- 127.0.0.1, port 8080. -/
def local8080 : Name := .in4 (fun i => [0x1f, 0x90].getD i 0) (fun i => [127, 0, 0, 1].getD i 0)

/-- A datagram "A" from 127.0.0.1, port 8080, is answered on a host of one kind, or on one of the other. -/
example : Is4 local8080 0x7f000001 8080 ∧
    (∀ le, ∃ x y, (receive4 (desk ⟨1, [65], local8080⟩) le 3 10 0 (some 0) (some 0) []).1.sender = (some x, some y) ∧ x = 0x7f000001 ∧ y = 8080 ∧
      (send4 (desk ⟨1, [65], local8080⟩) le 3 [66] x y 0 []).1 = (1, false)) := by
  refine ⟨⟨_, _, rfl, by decide, by decide⟩, fun le => ⟨0x7f000001, 8080, ?_, rfl, rfl, ?_⟩⟩ <;> cases le <;> decide

/-- The sender of an empty datagram is not that which is stored. -/
theorem datagram_stale_counterexample : ¬ ∀ (le : Bool) (k : Packet) (old : V4) (oldp : BitVec 16) (a p : Nat), Is4 k.name a p →
    ∃ x y, (receive4 (desk k) le 3 10 0 (some old) (some oldp) []).1.sender = (some x, some y) ∧ x.toNat = a ∧ y.toNat = p := by
  intro h
  obtain ⟨x, y, e, hx, _⟩ := h true ⟨0, [], local8080⟩ 0x0a000001 80 0x7f000001 8080 ⟨_, _, rfl, by decide, by decide⟩
  have : x = 0x0a000001 := by
    have := congrArg Prod.fst e
    exact (Option.some.inj this).symm
  subst this
  revert hx
  decide

/-- A datagram may come from port zero; what is sent there has no destination. -/
theorem datagram_port_counterexample (le : Bool) (fd : Int) (data : List Byte) (a : V4) (flags : Int) (s : σ) :
    Says (w.sendto fd data flags none s) (send4 w le fd data a 0 flags s) := by
  obtain ⟨dest, hd, _, hs⟩ := datagram_send4 w le fd data a 0 flags s
  rw [hd rfl] at hs
  exact hs

/-! ## Local sockets -/

/-- A datagram is sent with one call to the socket of the path, if this is not longer than a socket address; without a path there is no destination. -/
theorem datagram_sendl_partial (fd : Int) (data : List Byte) (flags : Int) (s : σ) :
    Says (w.sendto fd data flags none s) (sendl w fd data none flags s) ∧
    ∀ n p, Isl n p → Says (w.sendto fd data flags (some n) s) (sendl w fd data (some p) flags s) := by
  refine ⟨says_report _, fun n p h => ?_⟩
  rw [isl_sun h]
  exact says_report _

/-- A longer path is cut, and the datagram goes to the socket of another path. -/
theorem datagram_long_counterexample (fd : Int) (data p : List Byte) (h0 : 0#8 ∉ p) (hl : 108 < p.length) (flags : Int) (s : σ) :
    ∃ n q, Isl n q ∧ q ≠ p ∧ q = p.take 108 ∧ Says (w.sendto fd data flags (some n) s) (sendl w fd data (some p) flags s) := by
  have hq : (p.take 108).length = 108 := by rw [List.length_take]; omega
  have hi : Isl (.un (Ipcl.address (p.take 108))) (p.take 108) := by
    refine ⟨fun e => by rw [e] at hq; simp at hq, fun e => h0 (List.mem_of_mem_take e), by omega, ?_⟩
    show Name.un ((p.take 108).take 108 ++ _) = _
    rw [List.take_of_length_le (by omega)]
    rfl
  refine ⟨_, _, hi, fun e => ?_, rfl, ?_⟩
  · rw [e] at hq; omega
  · have : Ipcl.address (p.take 108) = Ipcl.address p := by
      show (p.take 108).take 108 ++ List.replicate (108 - (p.take 108).length) 0#8 = p.take 108 ++ List.replicate (108 - p.length) 0#8
      rw [hq, List.take_of_length_le (by omega), show 108 - p.length = 108 - 108 by omega]
    rw [this]
    exact says_report _

/-- The path of the sender of a datagram that is not empty is stored, if there is room for it, and what is sent there goes to that socket. -/
theorem datagram_replyl_partial (fd : Int) (size : Nat) (flags : Int) {s s' : σ} {k : Packet} (hr : w.recvfrom fd size flags s = (.ok k, s')) (ht : 0 < k.total)
    {p : List Byte} (hk : Isl k.name p) (hl : p.length ≤ 107) (buffer : List Byte) (hb : p.length < buffer.length) :
    ∃ b, receivel w fd size flags (some buffer) s = some (⟨k.total, k.data, some b, false⟩, s') ∧ b.length = buffer.length ∧ Ipcl.Holds b p ∧
      ∀ (q : List Byte), Ipcl.Holds b q → ∀ (fd' : Int) (data : List Byte) (flags' : Int) (t : σ), Says (w.sendto fd' data flags' (some k.name) t) (sendl w fd' data (some q) flags' t) := by
  obtain ⟨hp, h0, _, e⟩ := id hk
  have hh : Ipcl.Holds (Ipcl.strncpyz buffer.length p) p := by
    have := Ipcl.strncpyz_holds (n := buffer.length) (s := p) (by omega) h0
    rwa [List.take_of_length_le (by omega)] at this
  refine ⟨Ipcl.strncpyz buffer.length p, ?_, Ipcl.strncpyz_length _ _, hh, fun q hq fd' data flags' t => ?_⟩
  · unfold receivel
    rw [hr]
    simp only [if_pos ht]
    have hz : (0 : Byte) ∈ p ++ List.replicate (108 - p.length) 0#8 := by
      refine List.mem_append_right _ ?_
      rw [List.mem_replicate]
      exact ⟨by omega, rfl⟩
    have : Ipcl.identify k.name.sun.1 k.name.sun.2 (some buffer) = some (0, some (Ipcl.strncpyz buffer.length p)) := by
      rw [e]
      show Ipcl.identify true (p ++ List.replicate (108 - p.length) 0#8) _ = _
      unfold Ipcl.identify
      rw [if_neg (by simp)]
      simp only []
      rw [if_neg (by omega), if_neg (fun h => h.1 hz), takeWhile_path h0]
    rw [this]
  · rw [Ipcl.holds_unique hq hh]
    exact (datagram_sendl_partial w fd' data flags' t).2 _ _ hk

/-- The name of a socket that is bound to "/s", as the system has it. -/
example : Isl (.un ([47, 115] ++ List.replicate 106 0#8)) [47, 115] ∧
    (receivel (desk ⟨1, [65], .un ([47, 115] ++ List.replicate 106 0#8)⟩) 3 10 0 (some [1, 2, 3]) []).map (fun r => r.1.sender) = some (some [47, 115, 0]) :=
  ⟨⟨by decide, by decide, by decide, rfl⟩, by decide⟩

/-- The path of the near end of a socket, or of the far end, is stored if there is room for it; without a name, the variable is as it was. -/
theorem datagram_endl_partial (call : Int → σ → Except Errno Name × σ) (fd : Int) (s s' : σ) (n : Name) (hc : call fd s = (.ok n, s')) :
    (∀ p (buffer : List Byte), Isl n p → p.length ≤ 107 → p.length < buffer.length →
      ∃ b, endl call fd (some buffer) s = some ((0, some b, false), s') ∧ b.length = buffer.length ∧ Ipcl.Holds b p) ∧
    ∀ pathp, n = .other → endl call fd pathp s = some ((0, pathp, false), s') := by
  refine ⟨fun p buffer hk hl hb => ?_, fun pathp hn => ?_⟩
  · obtain ⟨b, h, hbl, hh, _⟩ := datagram_replyl_partial (⟨fun _ _ _ u => (.ok ⟨1, [], n⟩, u), fun _ _ _ _ u => (.error .other, u), call, call⟩ : World σ) fd 0 0 (s := s) rfl Nat.one_pos hk hl buffer hb
    refine ⟨b, ?_, hbl, hh⟩
    unfold receivel at h
    unfold endl
    rw [hc]
    simp only [] at h ⊢
    rw [if_pos (by decide)] at h
    cases hi : Ipcl.identify n.sun.1 n.sun.2 (some buffer) with
    | none => rw [hi] at h; cases h
    | some r =>
      rw [hi] at h
      have : r.2 = some b := congrArg (fun x => x.1.sender) (Option.some.inj h)
      simp only []
      rw [this]
  · unfold endl
    rw [hc, hn]
    rfl

/-- A datagram from a socket without a name leaves the path as it was, as if it were from whoever has sent the one before. -/
theorem datagram_unnamed_counterexample (fd : Int) (size : Nat) (flags : Int) {s s' : σ} {k : Packet} (hr : w.recvfrom fd size flags s = (.ok k, s')) (ht : 0 < k.total)
    (hk : k.name = .other) (pathp : Option (List Byte)) : receivel w fd size flags pathp s = some (⟨k.total, k.data, pathp, false⟩, s') := by
  unfold receivel
  rw [hr]
  simp only [hk, if_pos ht]
  rfl

/-- A path for which there is no room is cut, and an answer goes to the socket of another path, if it is cut to something. -/
theorem datagram_room_counterexample (fd : Int) (size : Nat) (flags : Int) {s s' : σ} {k : Packet} (hr : w.recvfrom fd size flags s = (.ok k, s')) (ht : 0 < k.total)
    {p : List Byte} (hk : Isl k.name p) (hl : p.length ≤ 107) (buffer : List Byte) (hb0 : buffer ≠ []) (hb : buffer.length ≤ p.length) :
    ∃ b, receivel w fd size flags (some buffer) s = some (⟨k.total, k.data, some b, false⟩, s') ∧ Ipcl.Holds b (p.take (buffer.length - 1)) ∧ p.take (buffer.length - 1) ≠ p := by
  obtain ⟨hp, h0, _, e⟩ := id hk
  have hpos : 0 < buffer.length := List.length_pos_iff.mpr hb0
  refine ⟨Ipcl.strncpyz buffer.length p, ?_, Ipcl.strncpyz_holds hpos h0, fun h => ?_⟩
  · unfold receivel
    rw [hr]
    simp only [if_pos ht]
    have hz : (0 : Byte) ∈ p ++ List.replicate (108 - p.length) 0#8 := by
      refine List.mem_append_right _ ?_
      rw [List.mem_replicate]
      exact ⟨by omega, rfl⟩
    have : Ipcl.identify k.name.sun.1 k.name.sun.2 (some buffer) = some (0, some (Ipcl.strncpyz buffer.length p)) := by
      rw [e]
      show Ipcl.identify true (p ++ List.replicate (108 - p.length) 0#8) _ = _
      unfold Ipcl.identify
      rw [if_neg (by simp)]
      simp only []
      rw [if_neg (by omega), if_neg (fun h => h.1 hz), takeWhile_path h0]
    rw [this]
  · have := congrArg List.length h
    rw [List.length_take] at this
    omega

/-- The path of a sender that fills the socket address is read beyond its end, if there is room for more. -/
theorem datagram_full_counterexample (fd : Int) (size : Nat) (flags : Int) {s s' : σ} {k : Packet} (hr : w.recvfrom fd size flags s = (.ok k, s')) (ht : 0 < k.total)
    {p : List Byte} (hk : Isl k.name p) (hl : p.length = 108) (buffer : List Byte) (hb : 108 < buffer.length) : receivel w fd size flags (some buffer) s = none := by
  obtain ⟨hp, h0, _, e⟩ := id hk
  unfold receivel
  rw [hr]
  simp only [if_pos ht]
  have : Ipcl.identify k.name.sun.1 k.name.sun.2 (some buffer) = none := by
    rw [e]
    show Ipcl.identify true (p ++ List.replicate (108 - p.length) 0#8) _ = _
    unfold Ipcl.identify
    rw [if_neg (by simp)]
    simp only []
    rw [if_neg (by omega), if_pos]
    rw [hl, Nat.sub_self, List.replicate_zero, List.append_nil]
    exact ⟨h0, by omega⟩
  rw [this]

/-! ## Names of hosts -/

/-- An IPv4 address in dot notation, or the addresses of a host: the array has all of them, in order, and the end, and the one address is the first of them.  Without any there is no array and the
address is zero. -/
theorem resolve4_partial (le : Bool) :
    (∀ (b : Fin 4 → Byte) host, ∃ x : V4, x.toNat = big [b 0, b 1, b 2, b 3] ∧ addresses4 le (some (Address.load32 le (wide 4 b))) host = some (some [x, 0]) ∧
      address4 le (some (Address.load32 le (wide 4 b))) host = some x) ∧
    (addresses4 le none none = some none ∧ address4 le none none = some 0) ∧
    (∀ h : Host, h.inet = false → addresses4 le none (some h) = some none ∧ address4 le none (some h) = some 0) ∧
    ∀ h : Host, Proper h → ∃ (x : V4) (l : List V4), (x :: l).map BitVec.toNat = h.list.map big ∧ addresses4 le none (some h) = some (some (x :: l ++ [0])) ∧ address4 le none (some h) = some x := by
  refine ⟨fun b host => ⟨_, addr_value le b, rfl, rfl⟩, ⟨rfl, rfl⟩, fun h hi => ?_, fun h hp => ?_⟩
  · unfold addresses4 address4
    simp only [hi]
    exact ⟨rfl, rfl⟩
  · obtain ⟨hi, hl, hne, hb⟩ := hp
    have four : fetch le h.length = fetch le 4 := by
      funext b
      have e : (if h.length < 4 then h.length else 4) = (4 : Int) := if_neg (by omega)
      unfold fetch
      simp only [e]
      rfl
    have one : ∀ b : List Byte, b.length = 4 → ∃ v, fetch le 4 b = some v ∧ (Address.swap32 le v).toNat = big b := by
      intro b h4
      match b, h4 with
      | [b0, b1, b2, b3], _ =>
        refine ⟨_, rfl, ?_⟩
        rw [Address.swap_load32, Address.number4, big4]
        simp
        omega
    have all : ∀ m : List (List Byte), (∀ b ∈ m, b.length = 4) → ∃ vs, m.mapM (fetch le 4) = some vs ∧ (vs.map (Address.swap32 le)).map BitVec.toNat = m.map big := by
      intro m
      induction m with
      | nil => intro _; exact ⟨[], rfl, rfl⟩
      | cons b m ih =>
        intro hm
        obtain ⟨v, hv, ev⟩ := one b (hm b (List.mem_cons_self ..))
        obtain ⟨vs, hvs, evs⟩ := ih fun c hc => hm c (List.mem_cons_of_mem _ hc)
        refine ⟨v :: vs, ?_, ?_⟩
        · rw [List.mapM_cons, hv, hvs]; rfl
        · simp only [List.map_cons, ev]
          rw [evs]
    obtain ⟨vs, hvs, evs⟩ := all h.list hb
    cases hm : h.list with
    | nil => exact (hne hm).elim
    | cons b m =>
      obtain ⟨v, hv, ev⟩ := one b (hb b (by rw [hm]; exact List.mem_cons_self ..))
      rw [hm] at hvs evs
      rw [List.mapM_cons, hv] at hvs
      cases hq : m.mapM (fetch le 4) with
      | none => rw [hq] at hvs; cases hvs
      | some us =>
        rw [hq] at hvs
        cases hvs
        refine ⟨Address.swap32 le v, us.map (Address.swap32 le), evs, ?_, ?_⟩
        · unfold addresses4
          simp only [hi, four, hm]
          rw [if_neg (by simp), if_pos (by simp), List.mapM_cons, hv, hq]
          rfl
        · unfold address4
          simp only [hi, four, hm]
          rw [if_neg (by simp), hv]
          rfl

/-- 10.0.0.1 and 10.0.0.2 are the addresses of a host. -/
example : Proper ⟨true, 4, [[10, 0, 0, 1], [10, 0, 0, 2]]⟩ ∧ addresses4 true none (some ⟨true, 4, [[10, 0, 0, 1], [10, 0, 0, 2]]⟩) = some (some [0x0a000001, 0x0a000002, 0]) :=
  ⟨⟨rfl, by decide, by decide, by decide⟩, by decide⟩

/-- For a host without an address, the array is none, but for the one address what is at NULL is copied. -/
theorem resolve4_counterexample (le : Bool) (n : Int) : addresses4 le none (some ⟨true, n, []⟩) = some none ∧ address4 le none (some ⟨true, n, []⟩) = none := ⟨rfl, rfl⟩

/-- A name is looked up for IPv6, then for IPv4, then for any, until it is found; each list that is got is freed, once. -/
theorem resolve6_balanced (le : Bool) (old : V6) (get : Family → Info) :
    ∃ fs r log, Tried get fs ∧ Balanced get fs log ∧ addresses6 le old get = some (r, log) ∧
      (found get fs = none → r = none) ∧ ∀ l, found get fs = some l → ∃ a, r = some a ∧ Address.addresses le old l = some a := by
  have key : ∀ l, ∃ a, Address.addresses le old l = some a := fun l => ⟨_, Address.addresses_eq le old l⟩
  unfold addresses6 resolve attempt
  cases h6 : (get .inet6).ok with
  | true =>
    refine ⟨[.inet6], ?_⟩
    cases hl : (get .inet6).list with
    | none => exact ⟨none, [.asked .inet6], .inl ⟨rfl, h6⟩, by simp [Balanced, hl], by simp [h6, hl], fun _ => rfl, fun l h => by simp [found, h6, hl] at h⟩
    | some l =>
      obtain ⟨a, ha⟩ := key l
      exact ⟨some a, [.asked .inet6, .freed .inet6], .inl ⟨rfl, h6⟩, by simp [Balanced, hl], by simp [h6, hl, ha], fun h => by simp [found, h6, hl] at h,
        fun l' h => ⟨a, rfl, by simp [found, h6, hl] at h; rw [← h]; exact ha⟩⟩
  | false =>
    cases h4 : (get .inet).ok with
    | true =>
      refine ⟨[.inet6, .inet], ?_⟩
      cases hl : (get .inet).list with
      | none =>
        refine ⟨none, _, .inr (.inl ⟨rfl, h6, h4⟩), rfl, ?_, fun _ => rfl, fun l h => by simp [found, h4, hl] at h⟩
        cases hl6 : (get .inet6).list <;> simp [h6, hl6, hl, h4]
      | some l =>
        obtain ⟨a, ha⟩ := key l
        refine ⟨some a, _, .inr (.inl ⟨rfl, h6, h4⟩), rfl, ?_, fun h => by simp [found, h4, hl] at h, fun l' h => ⟨a, rfl, by simp [found, h4, hl] at h; rw [← h]; exact ha⟩⟩
        cases hl6 : (get .inet6).list <;> simp [h6, hl6, hl, h4, ha]
    | false =>
      refine ⟨[.inet6, .inet, .unspec], ?_⟩
      cases hu : (get .unspec).ok with
      | true =>
        cases hl : (get .unspec).list with
        | none =>
          refine ⟨none, _, .inr (.inr ⟨rfl, h6, h4⟩), rfl, ?_, fun _ => rfl, fun l h => by simp [found, hu, hl] at h⟩
          cases hl6 : (get .inet6).list <;> cases hl4 : (get .inet).list <;> simp [h6, hl6, hl4, hl, h4, hu]
        | some l =>
          obtain ⟨a, ha⟩ := key l
          refine ⟨some a, _, .inr (.inr ⟨rfl, h6, h4⟩), rfl, ?_, fun h => by simp [found, hu, hl] at h, fun l' h => ⟨a, rfl, by simp [found, hu, hl] at h; rw [← h]; exact ha⟩⟩
          cases hl6 : (get .inet6).list <;> cases hl4 : (get .inet).list <;> simp [h6, hl6, hl4, hl, h4, hu, ha]
      | false =>
        refine ⟨none, _, .inr (.inr ⟨rfl, h6, h4⟩), rfl, ?_, fun _ => rfl, fun l h => by simp [found, hu] at h⟩
        cases hl6 : (get .inet6).list <;> cases hl4 : (get .inet).list <;> cases hl : (get .unspec).list <;> simp [h6, hl6, hl4, hl, h4, hu]

/-- The one address is the first of the array, if the first that was found has an address at all, and the lists are freed in the same way; if nothing was found, it is zero. -/
theorem resolve6_first_partial (le : Bool) (old : V6) (get : Family → Info) :
    ∃ fs log, Tried get fs ∧ Balanced get fs log ∧ (found get fs = none → address6 le get = some (fun _ => 0, log)) ∧
      ∀ k l f, found get fs = some (some k :: l) → Address.value (some k) = some f →
        ∃ a r, address6 le get = some (a, log) ∧ Address.words a = f ∧ addresses6 le old get = some (some r, log) ∧ ∃ b m, r = b :: m ∧ Address.words b = f := by
  obtain ⟨fs, r, log, ht, hb, ha, hn, hs⟩ := resolve6_balanced le old get
  have hres : ∃ g log', resolve get = ((g, found get fs), log') ∧ (found get fs = none → log' = log) ∧ ((found get fs).isSome = true → log' ++ [.freed g] = log) := by
    rw [hb]
    unfold resolve attempt
    rcases ht with ⟨rfl, h6⟩ | ⟨rfl, h6, h4⟩ | ⟨rfl, h6, h4⟩
    · refine ⟨.inet6, [.asked .inet6], by simp [h6, found], fun h => ?_, fun h => ?_⟩ <;> simp [found, h6] at h <;> simp [h]
    · cases hl6 : (get .inet6).list with
      | none => refine ⟨.inet, [.asked .inet6, .asked .inet], by simp [h6, h4, hl6, found], fun h => ?_, fun h => ?_⟩ <;> simp [found, h4] at h <;> simp [h, hl6]
      | some _ => refine ⟨.inet, [.asked .inet6, .freed .inet6, .asked .inet], by simp [h6, h4, hl6, found], fun h => ?_, fun h => ?_⟩ <;> simp [found, h4] at h <;> simp [h, hl6]
    · cases hu : (get .unspec).ok with
      | true =>
        cases hl6 : (get .inet6).list <;> cases hl4 : (get .inet).list <;> cases hl : (get .unspec).list <;>
          exact ⟨.unspec, _, by simp [h6, h4, hu, hl6, hl4, hl, found]; rfl, by simp [found, hu, hl, hl6, hl4], by simp [found, hu, hl, hl6, hl4]⟩
      | false =>
        cases hl6 : (get .inet6).list <;> cases hl4 : (get .inet).list <;> cases hl : (get .unspec).list <;>
          exact ⟨.unspec, _, by simp [h6, h4, hu, hl6, hl4, hl, found]; rfl, by simp [found, hu, hl, hl6, hl4], by simp [found, hu]⟩
  obtain ⟨g, log', hr, hnone, hsome⟩ := hres
  refine ⟨fs, log, ht, hb, fun h => ?_, fun k l f h hv => ?_⟩
  · unfold address6
    rw [hr, h, hnone h]
    rfl
  · obtain ⟨a, rfl, haddr⟩ := hs _ h
    have hl := hsome (by rw [h]; rfl)
    refine ⟨(identify6 le Address.UNSPECIFIED k).2.1, a, ?_, (Address.value_identify le Address.UNSPECIFIED k hv).1, ha, ?_⟩
    · unfold address6
      rw [hr, h, ← hl]
    · rw [Address.addresses_eq] at haddr
      cases haddr
      rcases Address.stored_cons le old none (some k) l with ⟨hred, _⟩ | ⟨_, b, e, hvb⟩
      · rw [Address.redundant_iff hv] at hred
        obtain ⟨y, hy, _⟩ := hred
        cases hy
      · rw [hv] at hvb
        exact ⟨b, _, by rw [e]; rfl, (Option.some.inj hvb).symm⟩

/-- If the first that was found is of another family, the one address is zero, as if nothing had been found, although the array may have addresses; and if it has no address, NULL is used. -/
theorem resolve6_counterexample : ∃ get get' : Family → Info,
    (address6 true get).map (fun r => (r.1 0, r.1 7)) = some (0, 0) ∧ (addresses6 true Address.UNSPECIFIED get).map (fun r => r.1.map List.length) = some (some 2) ∧
    address6 true get' = none ∧ (addresses6 true Address.UNSPECIFIED get').map (fun r => r.1.map List.length) = some (some 2) := by
  let one : Option Address.Sock := some (.in4 (fun _ => 0) (fun i => [10, 0, 0, 1].getD i 0))
  refine ⟨fun f => if f = .unspec then ⟨true, some [some .other, one]⟩ else ⟨false, none⟩, fun f => if f = .unspec then ⟨true, some [none, one]⟩ else ⟨false, none⟩, ?_, ?_, rfl, ?_⟩ <;> rfl

/-- A host that is found for IPv4 only. -/
example : Tried (fun f => if f = .inet then ⟨true, some [some (.in4 (fun _ => 0) (fun i => [10, 0, 0, 1].getD i 0))]⟩ else ⟨false, none⟩) [.inet6, .inet] ∧
    (address6 true (fun f => if f = .inet then ⟨true, some [some (.in4 (fun _ => 0) (fun i => [10, 0, 0, 1].getD i 0))]⟩ else ⟨false, none⟩)).map (fun r => (r.1 5, r.1 6, r.1 7, r.2)) =
      some (0xffff, 0x0a00, 0x0001, [.asked .inet6, .asked .inet, .freed .inet]) := ⟨.inr (.inl ⟨rfl, rfl, rfl⟩), by decide⟩

end Diminuto.Datagram
