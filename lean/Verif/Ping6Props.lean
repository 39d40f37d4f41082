import Verif.Ping6
import Verif.PingLemmas
import Verif.AddressProps

/-!
# Property C118: the IPv6 ping
-/

namespace Diminuto.Ping6
open Ping (store16 store64 load16 load64 load_store16 load_store64 store16_length store64_length)
open Address (V6 Sock identify6 words number)

/-- A list of eight bytes or more. -/
theorem loads (le : Bool) {bs : List Byte} (h : 8 ≤ bs.length) : (∃ v, load64 le bs = some v) ∧ ∃ v, load16 le bs = some v := by
  match bs, h with
  | b0 :: b1 :: b2 :: b3 :: b4 :: b5 :: b6 :: b7 :: rest, _ => cases le <;> exact ⟨⟨_, rfl⟩, ⟨_, rfl⟩⟩

/-- C118.  Nothing is read outside of the buffer, whatever arrives. -/
theorem ping6_in_bounds (le : Bool) (old : V6) (arrival : Option (Sock × List Byte)) (now : BitVec 64) : receive le old arrival now ≠ none := by
  unfold receive
  match arrival with
  | none => simp
  | some (sa, d) =>
    simp only
    generalize hb : d.take 64 ++ List.replicate (64 - d.length) 0#8 = b
    have hl : b.length = 64 := by
      rw [← hb, List.length_append, List.length_take, List.length_replicate]; omega
    have h0 : b[0]? = some b[0] := List.getElem?_eq_getElem (by omega)
    have h1 : b[1]? = some b[1] := List.getElem?_eq_getElem (by omega)
    obtain ⟨-, v4, h4⟩ := loads le (bs := b.drop 4) (by rw [List.length_drop]; omega)
    obtain ⟨-, v6, h6⟩ := loads le (bs := b.drop 6) (by rw [List.length_drop]; omega)
    obtain ⟨⟨v8, h8⟩, -⟩ := loads le (bs := b.drop 8) (by rw [List.length_drop]; omega)
    rw [h0, h1, h4, h6, h8]
    split
    · simp
    · split
      · simp
      · simp only [Option.bind_some]
        split <;> simp

/-- C118.  What is returned: -1 if the system call fails, 64 for an echo reply of at least 64 bytes, and 0 for anything else that arrives; the address of the sender is stored if anything arrives, the type and the code if there
is a header, and the identifier and the sequence number if it is an echo reply. -/
theorem ping6_accepts (le : Bool) (old : V6) (arrival : Option (Sock × List Byte)) (now : BitVec 64) (r : Result) (hr : receive le old arrival now = some r) :
    match arrival with
    | none => r = { total := -1 }
    | some (sa, d) => (r.total = 64 ∨ r.total = 0) ∧ (r.total = 64 ↔ 64 ≤ d.length ∧ d[0]? = some 129#8) ∧ (r.address = if d = [] then none else some (identify6 le old sa).2.1) ∧
        (r.type = if 8 ≤ d.length then d[0]? else none) ∧ (r.code = if 8 ≤ d.length then d[1]? else none) ∧
        (r.id = if 8 ≤ d.length ∧ d[0]? = some 129#8 then load16 le (d.drop 4) else none) ∧ (r.seq = if 8 ≤ d.length ∧ d[0]? = some 129#8 then load16 le (d.drop 6) else none) := by
  unfold receive at hr
  match arrival with
  | none => simp only [Option.some.injEq] at hr; exact hr.symm
  | some (sa, d) =>
    simp only at hr ⊢
    by_cases hd : d = []
    · subst hd
      simp at hr
      subst hr
      simp
    · have hpos : 0 < d.length := List.length_pos_iff.mpr hd
      rw [if_neg (by omega)] at hr
      by_cases h8 : d.length < 8
      · rw [if_pos (by omega), Option.some.injEq] at hr
        subst hr
        simp [show ¬ 8 ≤ d.length by omega, show ¬ 64 ≤ d.length by omega, hd]
      · rw [if_neg (by omega)] at hr
        have h8 : 8 ≤ d.length := by omega
        match d, h8 with
        | b0 :: b1 :: b2 :: b3 :: b4 :: b5 :: b6 :: b7 :: rest, _ =>
          have hbuf : (b0 :: b1 :: b2 :: b3 :: b4 :: b5 :: b6 :: b7 :: rest).take 64 ++ List.replicate (64 - (b0 :: b1 :: b2 :: b3 :: b4 :: b5 :: b6 :: b7 :: rest).length) 0#8 =
            b0 :: b1 :: b2 :: b3 :: b4 :: b5 :: b6 :: b7 :: (rest.take 56 ++ List.replicate (64 - (b0 :: b1 :: b2 :: b3 :: b4 :: b5 :: b6 :: b7 :: rest).length) 0#8) := by simp
          rw [hbuf] at hr
          generalize hB : rest.take 56 ++ List.replicate (64 - (b0 :: b1 :: b2 :: b3 :: b4 :: b5 :: b6 :: b7 :: rest).length) 0#8 = B at hr
          have hBl : 8 ≤ B.length := by
            rw [← hB, List.length_append, List.length_take, List.length_replicate]; simp only [List.length_cons]; omega
          obtain ⟨⟨v, hv⟩, -⟩ := loads le hBl
          simp only [List.getElem?_cons_zero, List.getElem?_cons_succ, Option.bind_some, List.drop_succ_cons, List.drop_zero, load16, hv, Option.map_some] at hr ⊢
          by_cases ht : b0 = 129#8
          · subst ht
            simp only [ne_eq, not_true_eq_false, if_false, Option.some.injEq] at hr
            subst hr
            simp only [List.length_cons]
            by_cases hl : rest.length + 1 + 1 + 1 + 1 + 1 + 1 + 1 + 1 < 64
            · simp [show min (rest.length + 1 + 1 + 1 + 1 + 1 + 1 + 1 + 1) 64 < 64 by omega]
              omega
            · simp [show min (rest.length + 1 + 1 + 1 + 1 + 1 + 1 + 1 + 1) 64 = 64 by omega]
              omega
          · rw [if_pos ht, Option.some.injEq] at hr
            subst hr
            simp [ht]

/-- C118.  The reply to a request, which has the type 129, any checksum, and otherwise the bytes of the request, gives back the identifier, the sequence number, and the time that it took; the address is that of the sender. -/
theorem ping6_round_trip (le : Bool) (old : V6) (id seq : BitVec 16) (before after : BitVec 64) (k0 k1 : Byte) (p b : Nat → Byte) :
    ∃ r, receive le old (some (.in6 p b, [129#8, 0#8, k0, k1] ++ (request le id seq before).drop 4)) after = some r ∧ r.total = 64 ∧ r.type = some 129#8 ∧ r.code = some 0#8 ∧
      r.id = some id ∧ r.seq = some seq ∧ r.elapsed = some (after - before) ∧ ∃ a, r.address = some a ∧ ∀ j : Fin 8, (a j).toNat = number (fun i => b (2 * j + i)) 2 := by
  have e4 : (request le id seq before).drop 4 = store16 le id ++ (store16 le seq ++ (store64 le before ++ List.replicate 48 0#8)) := by
    simp [request]
  generalize hD : [129#8, 0#8, k0, k1] ++ (request le id seq before).drop 4 = D
  have hl : D.length = 64 := by rw [← hD, e4]; simp [store16_length, store64_length]
  have hbuf : D.take 64 ++ List.replicate (64 - D.length) 0#8 = D := by
    rw [hl, ← hl, List.take_length]; simp
  have d4 : load16 le (D.drop 4) = some id := by rw [← hD, e4]; exact load_store16 ..
  have d6 : load16 le (D.drop 6) = some seq := by
    rw [← hD, e4, ← List.append_assoc, List.drop_append_of_le_length (by simp [store16_length]), List.drop_eq_nil_of_le (by simp [store16_length])]
    exact load_store16 ..
  have d8 : load64 le (D.drop 8) = some before := by
    rw [← hD, e4, ← List.append_assoc, ← List.append_assoc, List.drop_append_of_le_length (by simp [store16_length]), List.drop_eq_nil_of_le (by simp [store16_length])]
    exact load_store64 ..
  have g0 : D[0]? = some 129#8 := by rw [← hD]; rfl
  have g1 : D[1]? = some 0#8 := by rw [← hD]; rfl
  have ha := (Address.address_identify le old (.in6 p b)).2.1
  refine ⟨{ total := 64, address := some (identify6 le old (.in6 p b)).2.1, type := some 129#8, code := some 0#8, id := some id, seq := some seq, elapsed := some (after - before) }, ?_, rfl, rfl, rfl, rfl, rfl, rfl, _, rfl, ha⟩
  unfold receive
  simp only []
  rw [hbuf, hl, g0, g1, d4, d6, d8]
  simp

/-- C118.  The request is sent to the address that is given, with a port of zero, and has 64 bytes. -/
theorem ping6_request (le : Bool) (address : V6) (id seq : BitVec 16) (now : BitVec 64) :
    (request le id seq now).length = 64 ∧ (request le id seq now)[0]? = some 128#8 ∧ ∃ p b, destination le address = .in6 p b ∧ (∀ i, p i = 0#8) ∧ ∀ j : Fin 8, number (fun i => b (2 * j + i)) 2 = (address j).toNat := by
  refine ⟨by simp [request, store16_length, store64_length], rfl, ?_⟩
  obtain ⟨p, b, h, -, hb⟩ := (Address.address_socket le 0).1 address
  refine ⟨_, _, rfl, fun _ => rfl, fun j => ?_⟩
  rw [← hb j]
  simp only [Address.socket6] at h
  injection h with h1 h2
  rw [← h2]

/-- C118.  Claimed: the elapsed time is stored if the datagram is long enough to be the reply to a request.  Shown here: then it is stored, and then only for an echo reply. -/
theorem ping6_elapsed_partial (le : Bool) (old : V6) (sa : Sock) (d : List Byte) (now : BitVec 64) (r : Result) (hr : receive le old (some (sa, d)) now = some r) :
    (r.elapsed ≠ none ↔ 8 ≤ d.length ∧ d[0]? = some 129#8) ∧ (r.total = 64 → r.elapsed ≠ none) := by
  have key : r.elapsed ≠ none ↔ r.id ≠ none := by
    unfold receive at hr
    simp only at hr
    split at hr
    · injection hr with hr; subst hr; simp
    · split at hr
      · injection hr with hr; subst hr; simp
      · rw [Option.bind_eq_some_iff] at hr
        obtain ⟨_, -, hr⟩ := hr
        rw [Option.bind_eq_some_iff] at hr
        obtain ⟨_, -, hr⟩ := hr
        split at hr
        · injection hr with hr; subst hr; simp
        · rw [Option.bind_eq_some_iff] at hr
          obtain ⟨_, -, hr⟩ := hr
          rw [Option.bind_eq_some_iff] at hr
          obtain ⟨_, -, hr⟩ := hr
          rw [Option.map_eq_some_iff] at hr
          obtain ⟨_, -, hr⟩ := hr
          subst hr; simp
  obtain ⟨-, h1, -, -, -, h2, -⟩ := ping6_accepts le old (some (sa, d)) now r hr
  have hid : r.id ≠ none ↔ 8 ≤ d.length ∧ d[0]? = some 129#8 := by
    rw [h2]
    by_cases hc : 8 ≤ d.length ∧ d[0]? = some 129#8
    · rw [if_pos hc]
      match d, hc.1 with
      | b0 :: b1 :: b2 :: b3 :: b4 :: b5 :: b6 :: b7 :: rest, _ => simp [load16] at hc ⊢; exact hc
    · rw [if_neg hc]; simp [hc]
  refine ⟨key.trans hid, fun h => key.mpr (hid.mpr ⟨?_, ?_⟩)⟩
  · have := (h1.mp h).1; omega
  · exact (h1.mp h).2

/-- C118, refuted.  An echo reply of eight bytes is no reply to a request, which is reported, but an elapsed time is stored: all the time since the Epoch. -/
theorem ping6_elapsed_counterexample : (receive true (fun _ => 0) (some (.other, [129#8, 0#8, 0#8, 0#8, 1#8, 0#8, 1#8, 0#8])) 1700000000000000000#64).map (fun r => (r.total, r.elapsed)) =
    some (0, some 1700000000000000000#64) := by decide

/-- A reply on a little-endian host that took 500 ns, and the request, which does not reply. -/
example : ((receive true (fun _ => 0) (some (.other, [129#8, 0#8, 7#8, 9#8] ++ (request true 0x1234#16 7#16 1000#64).drop 4)) 1500#64).map fun r => (r.total, r.id, r.seq, r.elapsed)) =
      some (64, some 0x1234#16, some 7#16, some 500#64) ∧
    ((receive true (fun _ => 0) (some (.other, request true 0x1234#16 7#16 1000#64)) 1500#64).map fun r => (r.total, r.type, r.id)) = some (0, some 128#8, none) := by decide

end Diminuto.Ping6
