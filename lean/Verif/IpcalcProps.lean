import Verif.IpcalcLemmas

/-!
# Properties of the tool that calculates addresses
-/

namespace Diminuto.Ipcalc

/-- C132.  With an address, a mask and a host part, the address that is printed is the one in the network of the first with the host part of the third, for every network. -/
theorem ipcalc_host (little : Bool) (aton : List Byte → Option (BitVec 32)) (ntoa : BitVec 32 → List Byte) (x y z : List Byte) (a m h : BitVec 32) (hx : aton x = some a) (hy : aton y = some m) (hz : aton z = some h) (bits : Nat)
    (hm : IsMask little bits m) :
    ∃ r, main little aton ntoa [x, y, z] = .address (ntoa r) ∧ number little r / 2 ^ bits = number little a / 2 ^ bits ∧ number little r % 2 ^ bits = number little h % 2 ^ bits := by
  refine ⟨host a m h, ?_, ?_⟩
  · simp [main, addresses, hx, hy, hz]
  · rw [← swap_number, ← swap_number, ← swap_number]
    unfold host
    rw [swap_or, swap_and, swap_and, swap_not, mask_eq hm]
    exact join _ _ _

/-- C132.  With an address and a mask it is the last address of the network, which is that for broadcasts. -/
theorem ipcalc_broadcast (little : Bool) (aton : List Byte → Option (BitVec 32)) (ntoa : BitVec 32 → List Byte) (x y : List Byte) (a m : BitVec 32) (hx : aton x = some a) (hy : aton y = some m) (bits : Nat)
    (hm : IsMask little bits m) :
    ∃ r, main little aton ntoa [x, y] = .address (ntoa r) ∧ number little r / 2 ^ bits = number little a / 2 ^ bits ∧ number little r % 2 ^ bits = 2 ^ bits - 1 := by
  refine ⟨broadcast a m, ?_, ?_⟩
  · have : ([x, y] : List (List Byte)) ≠ [Dec.ascii "-?"] := fun h => by have := congrArg List.length h; simp at this
    simp [main, addresses, hx, hy, this]
  · rw [← swap_number, ← swap_number]
    have e : broadcast a m = host a m (BitVec.allOnes 32) := by
      unfold broadcast host
      rw [show BitVec.ofInt 32 (-1) = BitVec.allOnes 32 by decide, BitVec.allOnes_and, BitVec.allOnes_xor]
    rw [e]
    unfold host
    rw [swap_or, swap_and, swap_and, swap_not, mask_eq hm]
    have hs : swap little (BitVec.allOnes 32) = BitVec.allOnes 32 := by cases little <;> decide
    rw [hs]
    obtain ⟨h1, h2⟩ := join (swap little a) (BitVec.allOnes 32) bits
    refine ⟨h1, h2.trans ?_⟩
    have p1 : 0 < 2 ^ bits := Nat.pow_pos (by decide)
    obtain ⟨k, hk⟩ : ∃ k, 2 ^ 32 = 2 ^ bits * (k + 1) := by
      obtain ⟨k, hk⟩ := Nat.pow_dvd_pow 2 hm.1
      cases k with
      | zero => omega
      | succ k => exact ⟨k, hk⟩
    rw [BitVec.toNat_allOnes, hk, Nat.mul_add, Nat.mul_one, Nat.add_sub_assoc p1, Nat.mul_add_mod, Nat.mod_eq_of_lt (by omega)]

/-- C132.  With an address it is the mask of its class, for the classes A, B and C. -/
theorem ipcalc_netmask_partial (little : Bool) (aton : List Byte → Option (BitVec 32)) (ntoa : BitVec 32 → List Byte) (x : List Byte) (hq : x ≠ Dec.ascii "-?") (a : BitVec 32) (hx : aton x = some a)
    (hc : number little a / 2 ^ 24 < 224) :
    ∃ r bits, main little aton ntoa [x] = .address (ntoa r) ∧ IsMask little bits r ∧
      bits = (if number little a / 2 ^ 24 < 128 then 24 else if number little a / 2 ^ 24 < 192 then 16 else 8) := by
  have hm : main little aton ntoa [x] = .address (ntoa (netmask little a)) := by simp [main, addresses, hx, hq]
  have h8 : swap little a &&& 0x80000000#32 = 0x00000000#32 ↔ number little a / 2 ^ 24 < 128 := by
    rw [← swap_number]
    generalize swap little a = v
    have hv := v.isLt
    rw [← BitVec.toNat_inj, show (0x80000000#32) = BitVec.allOnes 32 <<< 31 by decide, masked]
    show _ = 0 ↔ _
    omega
  have hb : swap little a &&& 0xc0000000#32 = 0x80000000#32 ↔ number little a / 2 ^ 30 = 2 := by
    rw [← swap_number]
    generalize swap little a = v
    have hv := v.isLt
    rw [← BitVec.toNat_inj, show (0xc0000000#32) = BitVec.allOnes 32 <<< 30 by decide, masked]
    show _ = 2147483648 ↔ _
    omega
  have hmask : ∀ bits m, bits ≤ 32 → (m : BitVec 32).toNat = 2 ^ 32 - 2 ^ bits → IsMask little bits (swap little m) := fun bits m hb h => ⟨hb, by rw [← swap_number, swap_swap, h]⟩
  have hn : number little a < 2 ^ 32 := by rw [← swap_number]; exact (swap little a).isLt
  refine ⟨netmask little a, _, hm, ?_, rfl⟩
  unfold netmask
  simp only []
  by_cases c1 : number little a / 2 ^ 24 < 128
  · rw [if_pos (h8.mpr c1), if_pos c1]; exact hmask 24 _ (by decide) (by decide)
  · rw [if_neg (fun h => c1 (h8.mp h)), if_neg c1]
    by_cases c2 : number little a / 2 ^ 24 < 192
    · rw [if_pos (hb.mpr (by omega)), if_pos c2]; exact hmask 16 _ (by decide) (by decide)
    · rw [if_neg c2, if_neg (fun e => c2 (by have := hb.mp e; omega))]; exact hmask 8 _ (by decide) (by decide)

/-- C132.  The classes D and E have no mask, but the tool prints that of class C for them: 224.0.0.1 is an address for multicasts. -/
theorem ipcalc_netmask_counterexample : ¬ ∀ (aton : List Byte → Option (BitVec 32)) (ntoa : BitVec 32 → List Byte) (x : List Byte) (a : BitVec 32), aton x = some a → ∀ r, main true aton ntoa [x] = .address r →
    number true a / 2 ^ 24 < 224 := by
  intro h
  have := h (fun _ => some 0x010000e0#32) (fun _ => []) [] 0x010000e0#32 rfl [] (by decide)
  revert this
  decide

/-- C132.  Whatever the arguments, an address is printed only if each of them is one, and there are one, two or three. -/
theorem ipcalc_arguments (little : Bool) (aton : List Byte → Option (BitVec 32)) (ntoa : BitVec 32 → List Byte) (args : List (List Byte)) (hq : args ≠ [Dec.ascii "-?"]) :
    (∃ r, main little aton ntoa args = .address r) ↔ (1 ≤ args.length ∧ args.length ≤ 3 ∧ ∀ s ∈ args, aton s ≠ none) := by
  unfold main
  rw [if_neg hq]
  by_cases hl : ¬ (1 ≤ args.length ∧ args.length ≤ 3)
  · rw [if_pos hl]
    exact ⟨fun ⟨r, h⟩ => by (cases h), fun h => absurd ⟨h.1, h.2.1⟩ hl⟩
  · rw [if_neg hl]
    have key : ∀ l : List (List Byte), (∃ e, addresses aton l = .inl e ∧ ∃ s ∈ l, aton s = none) ∨ (∃ r, addresses aton l = .inr r ∧ r.length = l.length ∧ ∀ s ∈ l, aton s ≠ none) := by
      intro l
      induction l with
      | nil => exact .inr ⟨[], rfl, rfl, by simp⟩
      | cons s l ih =>
        cases hs : aton s with
        | none => exact .inl ⟨s, by simp [addresses, hs], s, List.mem_cons_self .., hs⟩
        | some a =>
          rcases ih with ⟨e, h1, x, h2, h3⟩ | ⟨r, h1, h2, h3⟩
          · exact .inl ⟨e, by simp [addresses, hs, h1], x, List.mem_cons_of_mem _ h2, h3⟩
          · refine .inr ⟨a :: r, by simp [addresses, hs, h1], by simp [h2], fun x hx => ?_⟩
            rcases List.mem_cons.mp hx with rfl | hx
            · rw [hs]; exact nofun
            · exact h3 x hx
    have hl : 1 ≤ args.length ∧ args.length ≤ 3 := Decidable.not_not.mp hl
    rcases key args with ⟨e, h1, x, h2, h3⟩ | ⟨r, h1, h2, h3⟩
    · rw [h1]
      exact ⟨fun ⟨r, h⟩ => by (cases h), fun h => absurd h3 (h.2.2 x h2)⟩
    · rw [h1]
      refine ⟨fun _ => ⟨hl.1, hl.2, h3⟩, fun _ => ?_⟩
      rw [← h2] at hl
      rcases r with _ | ⟨a, _ | ⟨b, _ | ⟨c, _ | ⟨d, r⟩⟩⟩⟩
      · simp at hl
      · exact ⟨_, rfl⟩
      · exact ⟨_, rfl⟩
      · exact ⟨_, rfl⟩
      · simp at hl

/-- 192.168.1.222 and 255.255.255.0, on a machine on which the first byte has the least weight. -/
example : IsMask true 8 0x00ffffff#32 ∧ number true 0xde01a8c0#32 = 192 * 2 ^ 24 + 168 * 2 ^ 16 + 256 + 222 ∧ broadcast 0xde01a8c0#32 0x00ffffff#32 = 0xff01a8c0#32 ∧ netmask true 0xde01a8c0#32 = 0x00ffffff#32 := by
  refine ⟨⟨by decide, by decide⟩, by decide, by decide, by decide⟩

end Diminuto.Ipcalc
