import Verif.GramLemmas
import Verif.GramSpec

/-!
# Properties of records as datagrams
-/

namespace Diminuto.Gram

open ScatterGather (State View Inv)
open Datagram (World Name Packet Errno name4 name6 Is4 Is6)
open Address (V4 V6 identify4 identify6)

variable {N : Nat} {σ : Type}

theorem sends_send (hN : N < 2 ^ 64) {s : State N} {v : View N} (hi : Inv s v) {r : Fin N} (hr : v.role r = .record) (hs : v.Sound r) (w : World σ) (fd : Int) (dest : Option Name) (t : σ) :
    Sends (w.sendto fd (v.content r) 0 dest t) (send w fd s r dest t) := by
  rw [send_sound hN hi hr hs]
  constructor
  · intro n t' e; rw [e]
  · intro n t' e; rw [e]

theorem contains_inv (hN : N < 2 ^ 64) {s : State N} {v : View N} (hi : Inv s v) {r : Fin N} (hr : v.role r = .record) (hs : v.Sound r) : Contains s r (v.content r) :=
  fun total k => (ScatterGather.output_inv hN hi hr total none).2.2 k hs

/-- C167.  After any history: a record is sent as one datagram, whatever its segments, with all of its bytes in order, to the IPv4 address and the port that are given; without a port there is no destination. -/
theorem gram_send4 (hN : N < 2 ^ 64) (pools : Fin N → Bool) (os : List (ScatterGather.Op N)) (v : View N) (rs : List (ScatterGather.Result N)) (h : View.Run (View.start pools) os v rs)
    (r : Fin N) (hr : v.role r = .record) (hs : v.Sound r) (w : World σ) (le : Bool) (fd : Int) (a : V4) (port : BitVec 16) (t : σ) :
    ∃ s dest, ScatterGather.run (ScatterGather.start N) os = some (s, rs) ∧ (port = 0 → dest = none) ∧ (port ≠ 0 → ∃ n, dest = some n ∧ Is4 n a.toNat port.toNat) ∧
      Sends (w.sendto fd (v.content r) 0 dest t) (send4 w le fd s r a port t) := by
  obtain ⟨s, e, i⟩ := ScatterGather.run_inv hN os _ _ _ h _ (ScatterGather.inv_start pools)
  refine ⟨s, _, e, ?_, ?_, sends_send hN i hr hs w fd _ t⟩
  · intro h; rw [h]; rfl
  · intro h
    have : port.toNat > 0 := Nat.pos_of_ne_zero fun e => h (BitVec.eq_of_toNat_eq e)
    exact ⟨_, by rw [if_pos this], Datagram.is4_name le a port⟩

/-- C167.  The same of IPv6; the interface is left open. -/
theorem gram_send6 (hN : N < 2 ^ 64) (pools : Fin N → Bool) (os : List (ScatterGather.Op N)) (v : View N) (rs : List (ScatterGather.Result N)) (h : View.Run (View.start pools) os v rs)
    (r : Fin N) (hr : v.role r = .record) (hs : v.Sound r) (w : World σ) (le : Bool) (fd : Int) (a : V6) (port : BitVec 16) (t : σ) :
    ∃ s dest, ScatterGather.run (ScatterGather.start N) os = some (s, rs) ∧ (port = 0 → dest = none) ∧ (port ≠ 0 → ∃ n, dest = some n ∧ Is6 n (fun j => (a j).toNat) port.toNat 0) ∧
      Sends (w.sendto fd (v.content r) 0 dest t) (send6 w le fd s r a port t) := by
  obtain ⟨s, e, i⟩ := ScatterGather.run_inv hN os _ _ _ h _ (ScatterGather.inv_start pools)
  refine ⟨s, _, e, ?_, ?_, sends_send hN i hr hs w fd _ t⟩
  · intro h; rw [h]; rfl
  · intro h
    have : port.toNat > 0 := Nat.pos_of_ne_zero fun e => h (BitVec.eq_of_toNat_eq e)
    exact ⟨_, by rw [if_pos this], Datagram.is6_name le a port⟩

/-- What a record contains after a datagram has been received, and what all others do. -/
def After (v : View N) (r : Fin N) (d : List Byte) (s' : State N) : Prop :=
  Contains s' r (d.take (v.content r).length ++ (v.content r).drop d.length) ∧ ∀ r', r' ≠ r → v.role r' = .record → v.Sound r' → Contains s' r' (v.content r')

theorem after_received (hN : N < 2 ^ 64) {s s' : State N} {v : View N} (hi : Inv s v) {r : Fin N} (hr : v.role r = .record) (hs : v.Sound r) (d : List Byte) (hi' : Inv s' { v with role := v.received r d }) :
    After v r d s' := by
  constructor
  · rw [← ScatterGather.received_content hi r d hr]
    exact contains_inv hN hi' (received_role d hr) hs
  · intro r' hne hr' hs'
    rw [← content_other hi hne d]
    exact contains_inv hN hi' (received_role d hr') hs'

/-- C167.  After any history: a datagram, empty or not, is received with one call into the segments of a record, in order; the rest of that record and all other records are as they were; and the address and the port of the sender are stored wherever they are asked for.  What is sent there
goes to the socket that the datagram has come from. -/
theorem gram_receive4 (hN : N < 2 ^ 64) (pools : Fin N → Bool) (os : List (ScatterGather.Op N)) (v : View N) (rs : List (ScatterGather.Result N)) (h : View.Run (View.start pools) os v rs)
    (r : Fin N) (hr : v.role r = .record) (hs : v.Sound r) (w : World σ) (le : Bool) (fd : Int) (addressp : Option V4) (portp : Option (BitVec 16)) {t t' : σ} {k : Packet}
    (hk : w.recvfrom fd (v.content r).length 0 t = (.ok k, t')) {a p : Nat} (hn : Is4 k.name a p) :
    ∃ s s' x y, ScatterGather.run (ScatterGather.start N) os = some (s, rs) ∧ x.toNat = a ∧ y.toNat = p ∧
      receive4 w le fd s r addressp portp t = some ((s', (k.total : Int), (addressp.map fun _ => x, portp.map fun _ => y), false), t') ∧ After v r k.data s' ∧
      (p ≠ 0 → ∀ (w' : World σ) (le' : Bool) fd' r' (u : σ) l, v.role r' = .record → v.Sound r' → Contains s' r' l → Sends (w'.sendto fd' l 0 (some k.name) u) (send4 w' le' fd' s' r' x y u)) := by
  obtain ⟨s, e, i⟩ := ScatterGather.run_inv hN os _ _ _ h _ (ScatterGather.inv_start pools)
  obtain ⟨s', h1, h2⟩ := receive_sound hN i hr hs w fd t t' k hk
  refine ⟨s, s', _, _, e, (Datagram.identify4_value le hn).1, (Datagram.identify4_value le hn).2, ?_, after_received hN i hr hs _ h2, ?_⟩
  · unfold receive4
    rw [h1]
    rfl
  · intro hp w' le' fd' r' u l hr' hs' hl
    have hc := contains_inv hN h2 (received_role k.data hr') hs'
    have hlen : l = View.content { v with role := v.received r k.data } r' := by
      have e1 := hl 0 (max l.length (View.content { v with role := v.received r k.data } r').length)
      rw [hc 0 _] at e1
      have e2 := (Prod.mk.inj (Option.some.inj e1)).2
      rw [List.take_of_length_le (by omega), List.take_of_length_le (by omega)] at e2
      exact e2.symm
    rw [hlen]
    have hx := Datagram.identify4_value le hn
    have hport : (identify4 le k.name.sock).2.2.toNat > 0 := by rw [hx.2]; omega
    unfold send4
    rw [if_pos hport]
    have hn' := Datagram.is4_name le' (identify4 le k.name.sock).2.1 (identify4 le k.name.sock).2.2
    rw [hx.1, hx.2] at hn'
    rw [Datagram.is4_unique hn' hn]
    exact sends_send hN h2 (received_role k.data hr') hs' w' fd' _ u

/-- C167.  The same of IPv6, for a socket that is not of a particular interface. -/
theorem gram_receive6_partial (hN : N < 2 ^ 64) (pools : Fin N → Bool) (os : List (ScatterGather.Op N)) (v : View N) (rs : List (ScatterGather.Result N)) (h : View.Run (View.start pools) os v rs)
    (r : Fin N) (hr : v.role r = .record) (hs : v.Sound r) (w : World σ) (le : Bool) (fd : Int) (addressp : Option V6) (portp : Option (BitVec 16)) {t t' : σ} {k : Packet}
    (hk : w.recvfrom fd (v.content r).length 0 t = (.ok k, t')) {a : Fin 8 → Nat} {p z : Nat} (hn : Is6 k.name a p z) :
    ∃ (s s' : State N) (x : V6) (y : BitVec 16), ScatterGather.run (ScatterGather.start N) os = some (s, rs) ∧ (∀ j, (x j).toNat = a j) ∧ y.toNat = p ∧
      receive6 w le fd s r addressp portp t = some ((s', (k.total : Int), (addressp.map fun _ => x, portp.map fun _ => y), false), t') ∧ After v r k.data s' ∧
      (p ≠ 0 → z = 0 → ∀ (w' : World σ) (le' : Bool) fd' r' (u : σ) l, v.role r' = .record → v.Sound r' → Contains s' r' l → Sends (w'.sendto fd' l 0 (some k.name) u) (send6 w' le' fd' s' r' x y u)) := by
  obtain ⟨s, e, i⟩ := ScatterGather.run_inv hN os _ _ _ h _ (ScatterGather.inv_start pools)
  obtain ⟨s', h1, h2⟩ := receive_sound hN i hr hs w fd t t' k hk
  obtain ⟨hx, hy⟩ := Datagram.identify6_value le Address.UNSPECIFIED hn
  have key : ∀ old, (identify6 le old k.name.sock).2.1 = (identify6 le Address.UNSPECIFIED k.name.sock).2.1 := by
    intro old
    funext j
    exact BitVec.eq_of_toNat_eq (((Datagram.identify6_value le old hn).1 j).trans (hx j).symm)
  refine ⟨s, s', (identify6 le Address.UNSPECIFIED k.name.sock).2.1, (identify6 le Address.UNSPECIFIED k.name.sock).2.2, e, hx, hy, ?_, after_received hN i hr hs _ h2, ?_⟩
  · unfold receive6
    rw [h1]
    have e : (fun old => (identify6 le old k.name.sock).2.1) = fun _ => (identify6 le Address.UNSPECIFIED k.name.sock).2.1 := funext key
    simp only [Option.map_some, e]
  · intro hp hz w' le' fd' r' u l hr' hs' hl
    have hc := contains_inv hN h2 (received_role k.data hr') hs'
    have hlen : l = View.content { v with role := v.received r k.data } r' := by
      have e1 := hl 0 (max l.length (View.content { v with role := v.received r k.data } r').length)
      rw [hc 0 _] at e1
      have e2 := (Prod.mk.inj (Option.some.inj e1)).2
      rw [List.take_of_length_le (by omega), List.take_of_length_le (by omega)] at e2
      exact e2.symm
    rw [hlen]
    have hport : (identify6 le Address.UNSPECIFIED k.name.sock).2.2.toNat > 0 := by rw [hy]; omega
    unfold send6
    rw [if_pos hport]
    have hn' := Datagram.is6_name le' (identify6 le Address.UNSPECIFIED k.name.sock).2.1 (identify6 le Address.UNSPECIFIED k.name.sock).2.2
    rw [hy, show (fun j => ((identify6 le Address.UNSPECIFIED k.name.sock).2.1 j).toNat) = a from funext hx] at hn'
    rw [hz] at hn
    rw [Datagram.is6_unique hn' hn]
    exact sends_send hN h2 (received_role k.data hr') hs' w' fd' _ u

/-- C167.  If nothing is received, because that has failed, the variables are not as they were. -/
theorem gram_failed_counterexample (hN : N < 2 ^ 64) (pools : Fin N → Bool) (os : List (ScatterGather.Op N)) (v : View N) (rs : List (ScatterGather.Result N)) (h : View.Run (View.start pools) os v rs)
    (r : Fin N) (hr : v.role r = .record) (hs : v.Sound r) (w : World σ) (le : Bool) (fd : Int) {t t' : σ} {e : Errno} (hk : w.recvfrom fd (v.content r).length 0 t = (.error e, t')) :
    ∃ s, ScatterGather.run (ScatterGather.start N) os = some (s, rs) ∧ (∀ x y, receive4 w le fd s r (some x) (some y) t = some ((s, -1, (some 0, some 0), true), t')) ∧
      ∀ x y, receive6 w le fd s r (some x) (some y) t = some ((s, -1, (some fun _ => 0, some 0), true), t') := by
  obtain ⟨s, e', i⟩ := ScatterGather.run_inv hN os _ _ _ h _ (ScatterGather.inv_start pools)
  have hrec : receive w fd s r t = some ((s, -1, .other, true), t') := by
    unfold receive
    rw [vector_sound hN i hr hs, Option.bind_some]
    simp only []
    rw [room_content i hr, hk]
  refine ⟨s, e', fun x y => ?_, fun x y => ?_⟩
  · unfold receive4; rw [hrec]; rfl
  · unfold receive6; rw [hrec]; rfl

/-- C167.  A record without a segment, or with more than 1024, cannot be sent or received; the result is that of success with no bytes, and for a receiver the sender is nobody. -/
theorem gram_unsound_counterexample (hN : N < 2 ^ 64) (pools : Fin N → Bool) (os : List (ScatterGather.Op N)) (v : View N) (rs : List (ScatterGather.Result N)) (h : View.Run (View.start pools) os v rs)
    (r : Fin N) (hr : v.role r = .record) (hs : ¬ v.Sound r) (w : World σ) (le : Bool) (fd : Int) (t : σ) :
    ∃ s, ScatterGather.run (ScatterGather.start N) os = some (s, rs) ∧ (∀ a p, send4 w le fd s r a p t = some ((0, true), t)) ∧ (∀ a p, send6 w le fd s r a p t = some ((0, true), t)) ∧
      (∀ x y, receive4 w le fd s r (some x) (some y) t = some ((s, 0, (some 0, some 0), true), t)) ∧ ∀ x y, receive6 w le fd s r (some x) (some y) t = some ((s, 0, (some fun _ => 0, some 0), true), t) := by
  obtain ⟨s, e', i⟩ := ScatterGather.run_inv hN os _ _ _ h _ (ScatterGather.inv_start pools)
  have hv := vector_unsound hN i hr hs
  refine ⟨s, e', fun a p => ?_, fun a p => ?_, fun x y => ?_, fun x y => ?_⟩
  · unfold send4 send; rw [hv]; rfl
  · unfold send6 send; rw [hv]; rfl
  · unfold receive4 receive; rw [hv]; rfl
  · unfold receive6 receive; rw [hv]; rfl

/-- C167.  The functions for messages pass on what the system call has said, and there is a message in the log exactly if it failed but for an interrupt or for that it would wait. -/
theorem gram_message (call : Except Errno Nat × σ) : Datagram.Says call (message call) := by
  constructor
  · intro n t e
    rw [e]
    unfold message
    simp only []
    by_cases hn : n > 0
    · rw [if_pos hn]
    · rw [if_neg hn, show n = 0 by omega]; rfl
  · intro e t h
    rw [h]
    cases e
    · exact ⟨false, by simp [Datagram.Tells], rfl⟩
    · exact ⟨false, by simp [Datagram.Tells], rfl⟩
    · exact ⟨true, by simp [Datagram.Tells], rfl⟩

/-! ## Examples -/

/-- A socket from which a datagram of three bytes comes, from port 258 of the address 127.0.0.1, and that remembers what has been sent. -/
def socket : World (List (List Byte)) where
  recvfrom := fun _ _ _ t => (.ok ⟨3, [1, 2, 3], .in4 (fun i => [1, 2].getD i 0) (fun i => [127, 0, 0, 1].getD i 0)⟩, t)
  sendto := fun _ d _ _ t => (.ok d.length, t ++ [d])
  getsockname := fun _ t => (.error .other, t)
  getpeername := fun _ t => (.error .other, t)

/-- A record, 1, of segments of two bytes and of one. -/
def history : List (ScatterGather.Op 4) :=
  [.put 0 1, .put 0 2, .put 0 3, .recordAllocate 0, .segmentAllocate 0 2 (some (100, fun _ => 0x41)), .segmentAllocate 0 1 (some (200, fun _ => 0x42)), .append 1 2, .append 1 3]

example : ((ScatterGather.run (ScatterGather.start 4) history).bind fun s => send4 socket true 3 s.1 1 0x7f000001 9 []) = some ((3, false), [[0x41, 0x41, 0x42]]) := by decide +kernel

example : ((ScatterGather.run (ScatterGather.start 4) history).bind fun s => (receive4 socket true 3 s.1 1 (some 0) (some 0) []).bind fun r =>
    (send6 socket false 3 r.1.1 1 (fun _ => 0) 9 r.2).map fun q => ((r.1.2.1, r.1.2.2.1.1.map fun a => a.toNat, r.1.2.2.1.2.map fun p => p.toNat), q)) = some ((3, some 0x7f000001, some 258), ((3, false), [[1, 2, 3]])) := by decide +kernel

/-- The hypotheses are met. -/
example : ∃ v rs, View.Run (View.start fun n : Fin 4 => n = 0) history v rs ∧ v.role 1 = .record ∧ v.Sound 1 ∧ v.content 1 = [0x41, 0x41, 0x42] := by
  refine ⟨_, _, .cons (.put (by decide) (by decide)) (.cons (.put (by decide) (by decide)) (.cons (.put (by decide) (by decide))
    (.cons (.recordAllocate (n := 1) (q := [2, 3]) (by decide) (by decide))
    (.cons (.segmentAllocate (n := 2) (q := [3]) (by decide) (by decide) (by decide) (by
      intro n g h
      obtain ⟨n, hn⟩ := n
      match n, hn with
      | 0, _ => cases (show ScatterGather.Role.pool = .segment g from h)
      | 1, _ => cases (show ScatterGather.Role.record = .segment g from h)
      | 2, _ => cases (show ScatterGather.Role.spare = .segment g from h)
      | 3, _ => cases (show ScatterGather.Role.spare = .segment g from h)))
    (.cons (.segmentAllocate (n := 3) (q := []) (by decide) (by decide) (by decide) (by
      intro n g h
      obtain ⟨n, hn⟩ := n
      match n, hn with
      | 0, _ => cases (show ScatterGather.Role.pool = .segment g from h)
      | 1, _ => cases (show ScatterGather.Role.record = .segment g from h)
      | 2, _ =>
        have := ScatterGather.Role.segment.inj (show ScatterGather.Role.segment ⟨100, 2, [0x41, 0x41]⟩ = .segment g from h)
        rw [← this]; decide
      | 3, _ => cases (show ScatterGather.Role.spare = .segment g from h)))
    (.cons (.append (by decide) (by rfl) (by decide)) (.cons (.append (by decide) (by rfl) (by decide)) .nil))))))), by decide, by unfold View.Sound; decide, by decide⟩

example : Is4 (Name.in4 (fun i => [1, 2].getD i 0) (fun i => [127, 0, 0, 1].getD i 0)) 0x7f000001 258 := ⟨_, _, rfl, by decide, by decide⟩

end Diminuto.Gram
