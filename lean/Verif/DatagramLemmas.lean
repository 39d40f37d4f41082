import Verif.DatagramSpec
import Verif.AddressLemmas
import Verif.IpclLemmas

/-!
# Lemmas about datagrams
-/

namespace Diminuto.Datagram

open Address (V4 V6 swap16 swap32 swap6 bytes16 bytes32 mem identify4 identify6)

theorem big2 (a b : Byte) : big [a, b] = a.toNat * 256 + b.toNat := by simp [big]; omega
theorem big4 (a b c d : Byte) : big [a, b, c, d] = ((a.toNat * 256 + b.toNat) * 256 + c.toNat) * 256 + d.toNat := by simp [big]; omega

theorem wide_lt {n : Nat} (b : Fin n → Byte) (i : Nat) (h : i < n) : wide n b i = b ⟨i, h⟩ := by simp [wide, h]

theorem number_port (p : Fin 2 → Byte) : Address.number (wide 2 p) 2 = big [p 0, p 1] := by
  rw [Address.number2, big2, wide_lt p 0 (by omega), wide_lt p 1 (by omega)]; rfl

theorem number_addr (b : Fin 4 → Byte) : Address.number (wide 4 b) 4 = big [b 0, b 1, b 2, b 3] := by
  rw [Address.number4, big4, wide_lt b 0 (by omega), wide_lt b 1 (by omega), wide_lt b 2 (by omega), wide_lt b 3 (by omega)]
  show (b 0).toNat * 16777216 + (b 1).toNat * 65536 + (b 2).toNat * 256 + (b 3).toNat = _
  omega

theorem number_word (b : Fin 16 → Byte) (j : Fin 8) : Address.number (fun i => wide 16 b (2 * j + i)) 2 = big [b ⟨2 * j, by omega⟩, b ⟨2 * j + 1, by omega⟩] := by
  rw [Address.number2, big2]
  show (wide 16 b (2 * j + 0)).toNat * 256 + (wide 16 b (2 * j + 1)).toNat = _
  rw [wide_lt b (2 * j + 0) (by omega), wide_lt b (2 * j + 1) (by omega)]
  rfl

theorem port_value (le : Bool) (p : Fin 2 → Byte) : (swap16 le (Address.load16 le (wide 2 p))).toNat = big [p 0, p 1] := by rw [Address.swap_load16, number_port]

theorem addr_value (le : Bool) (b : Fin 4 → Byte) : (swap32 le (Address.load32 le (wide 4 b))).toNat = big [b 0, b 1, b 2, b 3] := by rw [Address.swap_load32, number_addr]

theorem word_value (le : Bool) (b : Fin 16 → Byte) (j : Fin 8) : (swap6 le (Address.load le (wide 16 b)) j).toNat = big [b ⟨2 * j, by omega⟩, b ⟨2 * j + 1, by omega⟩] := by
  rw [Address.swap6_load, number_word]

theorem port_bytes (le : Bool) (port : BitVec 16) : big [narrow 2 (bytes16 le (swap16 le port)) 0, narrow 2 (bytes16 le (swap16 le port)) 1] = port.toNat := by
  rw [big2]
  show (bytes16 le (swap16 le port) 0).toNat * 256 + (bytes16 le (swap16 le port) 1).toNat = _
  rw [(Address.bytes_swap16 le port).1, (Address.bytes_swap16 le port).2]
  omega

theorem addr_bytes (le : Bool) (a : V4) : big [narrow 4 (bytes32 le (swap32 le a)) 0, narrow 4 (bytes32 le (swap32 le a)) 1, narrow 4 (bytes32 le (swap32 le a)) 2, narrow 4 (bytes32 le (swap32 le a)) 3] = a.toNat := by
  rw [big4]
  obtain ⟨b0, b1, b2, b3⟩ := Address.bytes_swap32 le a
  show (((bytes32 le (swap32 le a) 0).toNat * 256 + (bytes32 le (swap32 le a) 1).toNat) * 256 + (bytes32 le (swap32 le a) 2).toNat) * 256 + (bytes32 le (swap32 le a) 3).toNat = _
  rw [b0, b1, b2, b3]
  have := a.isLt
  omega

theorem word_bytes (le : Bool) (a : V6) (j : Fin 8) : big [narrow 16 (mem le (swap6 le a)) ⟨2 * j, by omega⟩, narrow 16 (mem le (swap6 le a)) ⟨2 * j + 1, by omega⟩] = (a j).toNat := by
  rw [big2]
  show (mem le (swap6 le a) (2 * j + 0)).toNat * 256 + (mem le (swap6 le a) (2 * j + 1)).toNat = _
  rw [Address.mem_word le _ j 0 (by omega), Address.mem_word le _ j 1 (by omega), Address.swap6_eq, (Address.bytes_swap16 le (a j)).1, (Address.bytes_swap16 le (a j)).2]
  omega

/-- Bytes are determined by the number that they are. -/
theorem big2_inj {a b c d : Byte} (h : big [a, b] = big [c, d]) : a = c ∧ b = d := by
  rw [big2, big2] at h
  have := a.isLt; have := b.isLt; have := c.isLt; have := d.isLt
  exact ⟨BitVec.eq_of_toNat_eq (by omega), BitVec.eq_of_toNat_eq (by omega)⟩

theorem big4_inj {a b c d a' b' c' d' : Byte} (h : big [a, b, c, d] = big [a', b', c', d']) : a = a' ∧ b = b' ∧ c = c' ∧ d = d' := by
  rw [big4, big4] at h
  have := a.isLt; have := b.isLt; have := c.isLt; have := d.isLt
  have := a'.isLt; have := b'.isLt; have := c'.isLt; have := d'.isLt
  exact ⟨BitVec.eq_of_toNat_eq (by omega), BitVec.eq_of_toNat_eq (by omega), BitVec.eq_of_toNat_eq (by omega), BitVec.eq_of_toNat_eq (by omega)⟩

theorem fin2_ext {p q : Fin 2 → Byte} (h : big [p 0, p 1] = big [q 0, q 1]) : p = q := by
  obtain ⟨h0, h1⟩ := big2_inj h
  funext i
  match i with
  | ⟨0, _⟩ => exact h0
  | ⟨1, _⟩ => exact h1

theorem fin4_ext {p q : Fin 4 → Byte} (h : big [p 0, p 1, p 2, p 3] = big [q 0, q 1, q 2, q 3]) : p = q := by
  obtain ⟨h0, h1, h2, h3⟩ := big4_inj h
  funext i
  match i with
  | ⟨0, _⟩ => exact h0
  | ⟨1, _⟩ => exact h1
  | ⟨2, _⟩ => exact h2
  | ⟨3, _⟩ => exact h3

theorem fin16_ext {p q : Fin 16 → Byte} (h : ∀ j : Fin 8, big [p ⟨2 * j, by omega⟩, p ⟨2 * j + 1, by omega⟩] = big [q ⟨2 * j, by omega⟩, q ⟨2 * j + 1, by omega⟩]) : p = q := by
  funext i
  have hj := big2_inj (h ⟨i / 2, by omega⟩)
  by_cases he : (i : Nat) % 2 = 0
  · have e : i = ⟨2 * (i / 2), by omega⟩ := Fin.ext (by simp only []; omega)
    rw [e]; exact hj.1
  · have e : i = ⟨2 * (i / 2) + 1, by omega⟩ := Fin.ext (by simp only []; omega)
    rw [e]; exact hj.2

theorem is4_name (le : Bool) (a : V4) (port : BitVec 16) : Is4 (name4 le a port) a.toNat port.toNat := ⟨_, _, rfl, port_bytes le port, addr_bytes le a⟩

theorem is6_name (le : Bool) (a : V6) (port : BitVec 16) : Is6 (name6 le a port) (fun j => (a j).toNat) port.toNat 0 := ⟨_, _, _, rfl, port_bytes le port, word_bytes le a, rfl⟩

theorem is4_unique {n m : Name} {a p : Nat} (h : Is4 n a p) (h' : Is4 m a p) : n = m := by
  obtain ⟨q, b, rfl, hq, hb⟩ := h
  obtain ⟨q', b', rfl, hq', hb'⟩ := h'
  rw [fin2_ext (hq.trans hq'.symm), fin4_ext (hb.trans hb'.symm)]

theorem is6_unique {n m : Name} {a : Fin 8 → Nat} {p z : Nat} (h : Is6 n a p z) (h' : Is6 m a p z) : n = m := by
  obtain ⟨q, b, s, rfl, hq, hb, hs⟩ := h
  obtain ⟨q', b', s', rfl, hq', hb', hs'⟩ := h'
  rw [fin2_ext (hq.trans hq'.symm), fin16_ext (fun j => (hb j).trans (hb' j).symm), BitVec.eq_of_toNat_eq (hs.trans hs'.symm)]

theorem identify4_value (le : Bool) {n : Name} {a p : Nat} (h : Is4 n a p) : (identify4 le n.sock).2.1.toNat = a ∧ (identify4 le n.sock).2.2.toNat = p := by
  obtain ⟨q, b, rfl, hq, hb⟩ := h
  exact ⟨(addr_value le b).trans hb, (port_value le q).trans hq⟩

theorem identify6_value (le : Bool) (old : V6) {n : Name} {a : Fin 8 → Nat} {p z : Nat} (h : Is6 n a p z) :
    (∀ j, ((identify6 le old n.sock).2.1 j).toNat = a j) ∧ (identify6 le old n.sock).2.2.toNat = p := by
  obtain ⟨q, b, s, rfl, hq, hb, hs⟩ := h
  exact ⟨fun j => (word_value le b j).trans (hb j), (port_value le q).trans hq⟩

theorem says_report {σ : Type} (call : Except Errno Nat × σ) : Says call (report call) := by
  refine ⟨fun n s h => by rw [h]; rfl, fun e s h => ⟨e.told, ?_, by rw [h]; rfl⟩⟩
  cases e <;> simp [Tells, Errno.told]

theorem tells_told (e : Errno) : Tells e e.told := by cases e <;> simp [Tells, Errno.told]

theorem isl_sun {n : Name} {p : List Byte} (h : Isl n p) : n = .un (Ipcl.address p) := by
  obtain ⟨_, _, hl, rfl⟩ := h
  show _ = Name.un (p.take 108 ++ List.replicate (108 - p.length) 0#8)
  rw [List.take_of_length_le hl]

theorem takeWhile_path {p : List Byte} (h0 : 0#8 ∉ p) (k : Nat) : (p ++ List.replicate k 0#8).takeWhile (· ≠ 0#8) = p := by
  induction p with
  | nil => cases k <;> simp [List.replicate_succ]
  | cons b p ih =>
    have hb : b ≠ 0#8 := fun e => h0 (e ▸ List.mem_cons_self ..)
    have := ih fun e => h0 (List.mem_cons_of_mem _ e)
    simp only [List.cons_append, List.takeWhile_cons, ne_eq, hb, not_false_eq_true, decide_true, if_true]
    rw [show (p ++ List.replicate k 0#8).takeWhile (fun x => decide ¬x = 0#8) = p from this]

end Diminuto.Datagram
