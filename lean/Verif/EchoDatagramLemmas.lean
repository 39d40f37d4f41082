import Verif.EchoSpec
import Verif.DatagramProps

/-!
# Lemmas about how the tool for the Internet provides datagrams
-/

namespace Diminuto.Echo

open Diminuto.Datagram (Is4 Is6 Says)

variable {σ : Type} (w : Datagram.World σ) (le : Bool)

theorem says_ok {call : Except Datagram.Errno Nat × σ} {r : (Int × Bool) × σ} (h : Says call r) (n : Nat) : r.1.1 = (n : Int) ↔ call = (.ok n, r.2) := by
  obtain ⟨c, t⟩ := call
  cases c with
  | ok m =>
    have := h.1 m t rfl
    rw [this]
    constructor
    · intro e
      have : m = n := Int.ofNat.inj e
      rw [this]
    · intro e
      cases e
      rfl
  | error e =>
    obtain ⟨b, _, hr⟩ := h.2 e t rfl
    rw [hr]
    constructor
    · intro e
      have : (-1 : Int) = n := e
      omega
    · intro e; exact (nomatch e)

theorem Is4.eq {n : Datagram.Name} {a p a' p' : Nat} (h : Is4 n a p) (h' : Is4 n a' p') : a = a' ∧ p = p' := by
  obtain ⟨q, b, e, hp, ha⟩ := h
  obtain ⟨q', b', e', hp', ha'⟩ := h'
  rw [e] at e'
  cases e'
  exact ⟨ha.symm.trans ha', hp.symm.trans hp'⟩

theorem datagram4_running (hw : Sane w) (fd : Int) (block : Nat) (s s2 : σ) :
    datagram4 w le fd block s = .running s2 ↔ ∃ k s1 a p, w.recvfrom fd block 0 s = (.ok k, s1) ∧ k.data ≠ [] ∧ Is4 k.name a p ∧ a ≠ 0 ∧ p ≠ 0 ∧ w.sendto fd k.data 0 (some k.name) s1 = (.ok k.data.length, s2) := by
  cases hr : w.recvfrom fd block 0 s with
  | mk res s1 =>
  cases res with
  | error e =>
    obtain ⟨t, _, h, _⟩ := Datagram.datagram_failed w le fd block 0 hr
    unfold datagram4
    rw [h (some 0) (some 0)]
    simp
  | ok k =>
    obtain ⟨ht, hle⟩ := hw.total fd block s k s1 hr
    by_cases hd : k.data = []
    · have : k.total = 0 := by rw [ht, hd]; rfl
      unfold datagram4 Datagram.receive4
      rw [hr]
      simp [this, hd]
    · have hpos : 0 < k.total := by rw [ht]; exact List.length_pos_iff.mpr hd
      by_cases hin : ∃ a p, Is4 k.name a p
      · obtain ⟨a, p, hn⟩ := hin
        obtain ⟨x, y, hx, hy, h⟩ := Datagram.datagram_receive4_partial w le fd block 0 (some 0) (some 0) hr hpos hn
        unfold datagram4
        rw [h]
        simp only [Option.map_some]
        rw [if_neg (by omega)]
        by_cases ha : x = 0
        · rw [if_pos ha]
          constructor
          · intro h; exact (nomatch h)
          · rintro ⟨k', s1', a', p', e, _, hi, ha', _⟩
            cases e
            refine absurd ?_ ha'
            rw [← (Is4.eq hn hi).1, ← hx, ha]; rfl
        rw [if_neg ha]
        by_cases hp : y = 0
        · rw [if_pos hp]
          constructor
          · intro h; exact (nomatch h)
          · rintro ⟨k', s1', a', p', e, _, hi, _, hp', _⟩
            cases e
            refine absurd ?_ hp'
            rw [← (Is4.eq hn hi).2, ← hy, hp]; rfl
        rw [if_neg hp, show List.take ((k.total : Nat) : Int).toNat k.data = k.data by rw [ht]; simp]
        obtain ⟨dest, _, hdest, hs⟩ := Datagram.datagram_send4 w le fd k.data x y 0 s1
        obtain ⟨n, rfl, hn'⟩ := hdest hp
        rw [hx, hy] at hn'
        rw [← Datagram.is4_unique hn hn'] at hs
        have key := says_ok hs k.data.length
        have ha0 : a ≠ 0 := fun e => ha (BitVec.eq_of_toNat_eq (by rw [hx, e]; rfl))
        have hp0 : p ≠ 0 := fun e => hp (BitVec.eq_of_toNat_eq (by rw [hy, e]; rfl))
        rw [ht]
        by_cases hq : (Datagram.send4 w le fd k.data x y 0 s1).1.1 = (k.data.length : Int)
        · rw [if_pos hq]
          constructor
          · intro e
            cases e
            exact ⟨k, s1, a, p, rfl, hd, hn, ha0, hp0, key.mp hq⟩
          · rintro ⟨k', s1', a', p', e, _, _, _, _, e'⟩
            cases e
            rw [key.mp hq] at e'
            cases e'
            rfl
        · rw [if_neg hq]
          constructor
          · intro e; exact (nomatch e)
          · rintro ⟨k', s1', a', p', e, _, _, _, _, e'⟩
            cases e
            exact absurd (by rw [hs.1 _ _ e']) hq
      · have h := (Datagram.datagram_receive_other w le fd block 0 hr hpos).2.1 (fun a p hx => hin ⟨a, p, hx⟩) 0 0
        unfold datagram4
        rw [h]
        simp only []
        rw [if_neg (by omega), if_pos trivial]
        constructor
        · intro e; exact (nomatch e)
        · rintro ⟨k', s1', a', p', e, _, hi, _⟩
          cases e
          exact absurd ⟨a', p', hi⟩ hin

theorem Is6.eq {n : Datagram.Name} {a a' : Fin 8 → Nat} {p z p' z' : Nat} (h : Is6 n a p z) (h' : Is6 n a' p' z') : a = a' ∧ p = p' ∧ z = z' := by
  obtain ⟨q, b, y, e, hp, ha, hz⟩ := h
  obtain ⟨q', b', y', e', hp', ha', hz'⟩ := h'
  rw [e] at e'
  cases e'
  exact ⟨funext fun j => (ha j).symm.trans (ha' j), hp.symm.trans hp', hz.symm.trans hz'⟩

theorem datagram6_running (hw : Sane w) (hw6 : Only6 w) (fd : Int) (block : Nat) (s s2 : σ) :
    datagram6 w le fd block s = .running s2 ↔ ∃ k s1 m a p z, w.recvfrom fd block 0 s = (.ok k, s1) ∧ k.data ≠ [] ∧ Is6 k.name a p z ∧ (∃ j, a j ≠ 0) ∧ p ≠ 0 ∧ Is6 m a p 0 ∧
      w.sendto fd k.data 0 (some m) s1 = (.ok k.data.length, s2) := by
  cases hr : w.recvfrom fd block 0 s with
  | mk res s1 =>
  cases res with
  | error e =>
    obtain ⟨t, _, _, h, _⟩ := Datagram.datagram_failed w le fd block 0 hr
    unfold datagram6
    rw [h (some Address.UNSPECIFIED) (some 0)]
    simp
  | ok k =>
    obtain ⟨ht, hle⟩ := hw.total fd block s k s1 hr
    by_cases hd : k.data = []
    · have : k.total = 0 := by rw [ht, hd]; rfl
      unfold datagram6 Datagram.receive6
      rw [hr]
      simp [this, hd]
    · have hpos : 0 < k.total := by rw [ht]; exact List.length_pos_iff.mpr hd
      by_cases hin : ∃ a p z, Is6 k.name a p z
      · obtain ⟨a, p, z, hn⟩ := hin
        obtain ⟨x, y, hx, hy, h⟩ := Datagram.datagram_receive6_partial w le fd block 0 (some Address.UNSPECIFIED) (some 0) hr hpos hn
        unfold datagram6
        rw [h]
        simp only [Option.map_some]
        rw [if_neg (by omega)]
        by_cases ha : ∀ j, x j = 0
        · rw [if_pos ha]
          constructor
          · intro h; exact (nomatch h)
          · rintro ⟨k', s1', m, a', p', z', e, _, hi, ⟨j, ha'⟩, _⟩
            cases e
            refine absurd ?_ ha'
            rw [← (Is6.eq hn hi).1, ← hx, ha]; rfl
        rw [if_neg ha]
        by_cases hp : y = 0
        · rw [if_pos hp]
          constructor
          · intro h; exact (nomatch h)
          · rintro ⟨k', s1', m, a', p', z', e, _, hi, _, hp', _⟩
            cases e
            refine absurd ?_ hp'
            rw [← (Is6.eq hn hi).2.1, ← hy, hp]; rfl
        rw [if_neg hp, show List.take ((k.total : Nat) : Int).toNat k.data = k.data by rw [ht]; simp]
        obtain ⟨dest, _, hdest, hs⟩ := Datagram.datagram_send6 w le fd k.data x y 0 s1
        obtain ⟨n, rfl, hn'⟩ := hdest hp
        rw [hy, show (fun j => (x j).toNat) = a from funext hx] at hn'
        have key := says_ok hs k.data.length
        have ha0 : ∃ j, a j ≠ 0 := Classical.byContradiction fun hne => ha fun j => BitVec.eq_of_toNat_eq (by
          rw [hx]; exact Classical.byContradiction fun hz => hne ⟨j, hz⟩)
        have hp0 : p ≠ 0 := fun e => hp (BitVec.eq_of_toNat_eq (by rw [hy, e]; rfl))
        rw [ht]
        by_cases hq : (Datagram.send6 w le fd k.data x y 0 s1).1.1 = (k.data.length : Int)
        · rw [if_pos hq]
          constructor
          · intro e
            cases e
            exact ⟨k, s1, n, a, p, z, rfl, hd, hn, ha0, hp0, hn', key.mp hq⟩
          · rintro ⟨k', s1', m, a', p', z', e, _, hi, _, _, hm, e'⟩
            cases e
            obtain ⟨e1, e2, _⟩ := Is6.eq hn hi
            rw [← e1, ← e2] at hm
            rw [Datagram.is6_unique hm hn', key.mp hq] at e'
            cases e'
            rfl
        · rw [if_neg hq]
          constructor
          · intro e; exact (nomatch e)
          · rintro ⟨k', s1', m, a', p', z', e, _, hi, _, _, hm, e'⟩
            cases e
            obtain ⟨e1, e2, _⟩ := Is6.eq hn hi
            rw [← e1, ← e2] at hm
            rw [Datagram.is6_unique hm hn'] at e'
            exact absurd (by rw [hs.1 _ _ e']) hq
      · have h := (Datagram.datagram_receive_other w le fd block 0 hr hpos).2.2 (fun a p hx => by obtain ⟨q, b, e, _⟩ := hx; exact hw6 fd block s k s1 hr q b e) (fun a p z hx => hin ⟨a, p, z, hx⟩) Address.UNSPECIFIED 0
        unfold datagram6
        rw [h]
        simp only []
        rw [if_neg (by omega), if_pos (fun _ => trivial)]
        constructor
        · intro e; exact (nomatch e)
        · rintro ⟨k', s1', m, a', p', z', e, _, hi, _⟩
          cases e
          exact absurd ⟨a', p', z', hi⟩ hin

theorem and_running {α : Type} {o : Outcome α} {f : α → Outcome α} {b : α} : o.and f = .running b ↔ ∃ a, o = .running a ∧ f a = .running b := by
  cases o <;> simp [Outcome.and]

end Diminuto.Echo
