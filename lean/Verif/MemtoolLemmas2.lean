import Verif.MemtoolLemmas

/-!
# Lemmas: the tool that manipulates memory follows the account of the user
-/

namespace Diminuto.Memtool

open Diminuto.Map (World Stored within whole Honest whole_ge)

section
variable {σ β : Type} {m : Machine σ β}

/-- The state of the program and the account of the user agree. -/
structure Agrees (m : Machine σ β) (s : State σ β) (a : Account β) : Prop where
  value : s.value.toNat = a.value
  mask : s.mask.toNat = a.mask
  address : s.address.toNat = a.address
  length : s.length.toNat = a.length
  offset : s.offset.toNat = a.offset
  size : s.size.toNat = a.size
  sizes : a.size = 0 ∨ a.size = 1 ∨ a.size = 2 ∨ a.size = 4 ∨ a.size = 8
  bus : s.bus = a.bus
  out : s.out = a.out
  used : a.used = decide (s.base ≠ 0#64)
  mapped : s.base ≠ 0#64 → a.length ≠ 0 ∧ s.base.toNat + a.length ≤ 2 ^ 64 ∧ s.base.toNat % m.page.toNat = a.address % m.page.toNat ∧
    ∀ i, i < a.length → m.memory s.kernel (s.base.toNat + i) = some (a.address + i)

/-- What is mapped is what the program will unmap. -/
def Owns (m : Machine σ β) (s : State σ β) : Prop :=
  (s.base = 0#64 ∧ s.stored.length = 0#64 ∧ m.memory s.kernel = fun _ => none) ∨
  (s.base ≠ 0#64 ∧ 0 < s.stored.length.toNat ∧ s.stored.start.toNat % m.page.toNat = 0 ∧
    ∀ v, m.memory s.kernel v ≠ none ↔ within m.page.toNat s.stored.start.toNat s.stored.length.toNat v)

theorem mod_of_mod {a b page n : Nat} (h : a % page = b % page) (hd : page % n = 0) : a % n = b % n := by
  have h1 : n ∣ page := Nat.dvd_of_mod_eq_zero hd
  rw [← Nat.mod_mod_of_dvd a h1, ← Nat.mod_mod_of_dvd b h1, h]

/-- The operation on an object that is mapped. -/
theorem perform_spec {s : State σ β} {a : Account β} (op : Op) (mask n : BitVec 64) (data : BitVec 64)
    (hm : op = .set ∨ op = .bitSet → mask.toNat = a.mask) (hv : op ≠ .read → s.value.toNat = n.toNat)
    (hs : s.size.toNat = a.size) (hb : s.bus = a.bus) (hout : s.out = a.out)
    (hsz : a.size = 1 ∨ a.size = 2 ∨ a.size = 4 ∨ a.size = 8)
    (hbit : op = .bitClear ∨ op = .bitSet → n.toNat < 8 * a.size)
    (hp : physical (m.memory s.kernel) data.toNat a.size = some a.target) :
    ∃ s', perform m op mask data s = some s' ∧ s'.value.toNat = (a.act m.bus op n.toNat).value ∧ s'.bus = (a.act m.bus op n.toNat).bus ∧ s'.out = (a.act m.bus op n.toNat).out ∧
      s' = { s with value := s'.value, bus := s'.bus, out := s'.out } := by
  have htr : ∀ x : Nat, x % 2 ^ (8 * a.size) < 2 ^ 64 := by
    intro x
    have h1 := Nat.mod_lt x (Nat.two_pow_pos (8 * a.size))
    have h2 : 2 ^ (8 * a.size) ≤ 2 ^ 64 := Nat.pow_le_pow_right (by decide) (by omega)
    omega
  have hval : ∀ x : BitVec 64, ((x.setWidth (8 * a.size)).setWidth 64).toNat = x.toNat % 2 ^ (8 * a.size) := by
    intro x
    rw [BitVec.toNat_setWidth, BitVec.toNat_setWidth]
    exact Nat.mod_eq_of_lt (htr _)
  have hpa : perform m op mask data s = access m op mask a.target a.size s := by
    rw [perform, hs, hp]
  by_cases hr : op = .read
  · subst hr
    refine ⟨_, by rw [hpa]; rfl, ?_, ?_, ?_, rfl⟩
    · simp only [Account.act]
      rw [BitVec.toNat_setWidth, BitVec.toNat_ofNat, hb]
      exact Nat.mod_eq_of_lt (htr _)
    · simp only [Account.act, hb]
    · simp only [Account.act, BitVec.toNat_ofNat, hb, hout]
  · have hn := hv hr
    by_cases hw : op = .write
    · subst hw
      refine ⟨_, by rw [hpa]; rfl, ?_, ?_, ?_, rfl⟩
      · simp only [Account.act]
        rw [hval, hn]
      · simp only [Account.act, BitVec.toNat_setWidth, hb, hn]
      · simp only [Account.act, hout]
    · obtain ⟨x, hx, hx'⟩ := changed_spec op hr (8 * a.size) mask s.value (m.bus.load a.target a.size a.bus).1 (by rw [hn]; exact hbit)
      have hbits : bits op mask.toNat s.value.toNat (m.bus.load a.target a.size a.bus).1.testBit = bits op a.mask n.toNat (m.bus.load a.target a.size a.bus).1.testBit := by
        rw [hn]
        funext i
        cases op <;> simp only [bits]
        · rw [hm (Or.inr rfl)]
        · rw [hm (Or.inl rfl)]
      rw [hbits] at hx'
      have hperf : perform m op mask data s = some { s with bus := m.bus.store a.target a.size x.toNat (m.bus.load a.target a.size a.bus).2, value := (s.value.setWidth (8 * a.size)).setWidth 64 } := by
        cases op with
        | read => exact absurd rfl hr
        | write => exact absurd rfl hw
        | _ => rw [hpa]; simp only [access, hb, hx]
      refine ⟨_, hperf, ?_, ?_, ?_, rfl⟩
      · rw [hval, hn]
        cases op with
        | read => exact absurd rfl hr
        | write => exact absurd rfl hw
        | _ => rfl
      · rw [hx']
        cases op with
        | read => exact absurd rfl hr
        | write => exact absurd rfl hw
        | _ => rfl
      · rw [show ∀ v b, ({ s with bus := b, value := v } : State σ β).out = a.out from fun _ _ => hout]
        cases op with
        | read => exact absurd rfl hr
        | write => exact absurd rfl hw
        | _ => rfl

theorem act_fixed (bus : Bus β) (op : Op) (n : Nat) (a : Account β) :
    a.act bus op n = { a with value := (a.act bus op n).value, bus := (a.act bus op n).bus, out := (a.act bus op n).out, used := decide (a.length ≠ 0) } := by
  cases op <;> rfl

theorem unmap_owned (hw : Honest m.world m.page.toNat m.memory) {most : Nat} (hg : Grants m.world m.page.toNat most m.memory) {s : State σ β} (h : Owns m s) :
    (Map.unmap m.world s.stored s.kernel).2.1.length = 0#64 ∧ m.memory (Map.unmap m.world s.stored s.kernel).2.2 = fun _ => none := by
  rcases h with ⟨_, h1, h2⟩ | ⟨_, h1, h2, h3⟩
  · simp [Map.unmap, h1, h2]
  · have hne : s.stored.length ≠ 0#64 := by intro h; rw [h] at h1; simp at h1
    have hu := hg.unmaps s.stored.start s.stored.length s.kernel h1 h2 h3
    rcases hc : m.world.munmap s.stored.start s.stored.length s.kernel with ⟨rc, k⟩
    rw [hc] at hu
    have hlt : ¬ rc < 0 := by simpa using hu
    obtain ⟨_, hmem⟩ := hw.unmapped _ _ _ _ _ hc hu
    simp only [Map.unmap, if_neg hne, hc, if_neg hlt]
    refine ⟨trivial, ?_⟩
    rw [hmem]
    funext v
    by_cases hv : within m.page.toNat s.stored.start.toNat s.stored.length.toNat v
    · rw [if_pos hv]
    · rw [if_neg hv]
      cases hx : m.memory s.kernel v with
      | none => rfl
      | some p => exact absurd ((h3 v).1 (by rw [hx]; intro h; cases h)) hv

/-- The function that performs an operation: either a mapping is refused and nothing has happened, or the operation is done. -/
theorem operate_spec (hw : Honest m.world m.page.toNat m.memory) (hp : 0 < m.page.toNat) (hp8 : m.page.toNat % 8 = 0) {most : Nat} (hmost : most < 2 ^ 63)
    {s : State σ β} {a : Account β} (h : Agrees m s a) (op : Op) (mask n : BitVec 64)
    (hm : op = .set ∨ op = .bitSet → mask.toNat = a.mask) (hv : op ≠ .read → s.value.toNat = n.toNat) (hsen : a.sensible most op n.toNat) :
    (∃ s', operate m op mask s = some (true, s') ∧ s'.bus = a.bus ∧ s'.out = a.out ∧
      (∀ most', 8 ≤ most' → most ≤ most' → Grants m.world m.page.toNat most' m.memory → Owns m s → False)) ∨
    ∃ s', operate m op mask s = some (false, s') ∧ Agrees m s' (a.act m.bus op n.toNat) := by
  obtain ⟨hsz, hal, hoff, hreg, hbit⟩ := hsen
  have hsizes : a.size = 1 ∨ a.size = 2 ∨ a.size = 4 ∨ a.size = 8 := by
    have := h.sizes
    omega
  have hpage : m.page.toNat % a.size = 0 := by rcases hsizes with e | e | e | e <;> rw [e] <;> omega
  have hpl := m.page.isLt
  have hsne : s.size ≠ 0#64 := by intro e; have := h.size; rw [e] at this; simp at this; omega
  -- the state after the mapping
  have hmain : ∀ (base : BitVec 64) (stored : Stored) (k : σ), base ≠ 0#64 →
      base.toNat % m.page.toNat = (if a.length = 0 then a.offset else a.address) % m.page.toNat →
      base.toNat + (if a.length = 0 then a.size else a.length) ≤ 2 ^ 64 →
      (∀ i, i < (if a.length = 0 then a.size else a.length) → m.memory k (base.toNat + i) = some ((if a.length = 0 then a.offset else a.address) + i)) →
      ∃ s', perform m op mask (if s.length = 0#64 then base else base + s.offset) { s with base := base, stored := stored, kernel := k } = some s' ∧
        s'.value.toNat = (a.act m.bus op n.toNat).value ∧ s'.bus = (a.act m.bus op n.toNat).bus ∧ s'.out = (a.act m.bus op n.toNat).out ∧
        s' = { s with base := base, stored := stored, kernel := k, value := s'.value, bus := s'.bus, out := s'.out } := by
    intro base stored k hb hmod hle hmap
    apply perform_spec (s := { s with base := base, stored := stored, kernel := k }) op mask n _ hm hv h.size h.bus h.out hsizes hbit
    have hlen : s.length = 0#64 ↔ a.length = 0 := by
      have := h.length
      constructor
      · intro e; rw [e] at this; simpa using this.symm
      · intro e; apply BitVec.eq_of_toNat_eq; simp; omega
    by_cases hl : a.length = 0
    · rw [if_pos (hlen.2 hl)]
      simp only [if_pos hl] at hmod hle hmap
      have ht : a.target = a.offset := by simp [Account.target, hl]
      rw [ht] at hal ⊢
      exact physical_some (by omega) (by rw [mod_of_mod hmod hpage]; exact hal) hmap
    · rw [if_neg (fun e => hl (hlen.1 e))]
      simp only [if_neg hl] at hmod hle hmap
      have ht : a.target = a.address + a.offset := by simp [Account.target, hl]
      rw [ht] at hal ⊢
      obtain ⟨r1, r2, r3⟩ := hreg hl
      have hadd : (base + s.offset).toNat = base.toNat + a.offset := by
        rw [BitVec.toNat_add, h.offset]
        omega
      rw [hadd]
      apply physical_some (by omega)
      · rw [Nat.add_mod, mod_of_mod hmod hpage, ← Nat.add_mod]; exact hal
      · intro i hi
        have := hmap (a.offset + i) (by omega)
        rw [← Nat.add_assoc, ← Nat.add_assoc] at this
        exact this
  by_cases hb : s.base ≠ 0#64
  · right
    obtain ⟨q1, q2, q3, q4⟩ := h.mapped hb
    obtain ⟨s', e1, e2, e3, e4, e5⟩ := hmain s.base s.stored s.kernel hb (by rw [if_neg q1]; exact q3) (by rw [if_neg q1]; exact q2) (by simp only [if_neg q1]; exact q4)
    have hlen : s.length ≠ 0#64 := by
      intro e; have := h.length; rw [e] at this; simp at this; omega
    refine ⟨s', ?_, ?_⟩
    · simp only [operate, if_pos hb, if_neg hb, if_neg hsne]
      rw [e1]
      have : s'.length = s.length := by rw [e5]
      simp only [Option.map_some, this, if_neg hlen]
    · rw [act_fixed]
      constructor
      · exact e2
      · rw [e5]; exact h.mask
      · rw [e5]; exact h.address
      · rw [e5]; exact h.length
      · rw [e5]; exact h.offset
      · rw [e5]; exact h.size
      · exact h.sizes
      · exact e3
      · exact e4
      · rw [e5]; simp only []; simp [q1, hb]
      · intro _; rw [e5]; exact ⟨q1, q2, q3, q4⟩
  · have hb0 : s.base = 0#64 := Decidable.of_not_not hb
    by_cases hl : s.length = 0#64
    · have hl' : a.length = 0 := by have := h.length; rw [hl] at this; simpa using this.symm
      rcases hmap : Map.map m.world m.page s.offset s.size s.kernel with ⟨r, p, k⟩
      by_cases hr : r = 0#64
      · left
        refine ⟨{ s with base := r, stored := p, kernel := k }, ?_, h.bus, h.out, ?_⟩
        · simp only [operate, if_neg hb, if_pos hl, hmap, if_pos hr]
        · intro most' h8 _ hg ho
          rcases ho with ⟨_, _, hn⟩ | ⟨hne, _⟩
          · have hs8 : s.size.toNat ≤ 8 := by rw [h.size]; omega
            refine map_granted hw hg hp s.offset s.size s.kernel hn (by rw [h.size]; omega) (by omega) (by omega) ?_
            rw [hmap]; exact hr
          · exact hne hb0
      · right
        have hok := (Map.map_maps_partial hw hp s.offset s.size (by have := Nat.mod_lt s.offset.toNat hp; rw [h.size]; omega) s.kernel k r p hmap).2 hr
        have hown := (map_owns hw hp s.offset s.size s.kernel k r p hmap).2 hr
        obtain ⟨s', e1, e2, e3, e4, e5⟩ := hmain r p k hr (by rw [if_pos hl', ← h.offset]; exact hown.2.2.1) (by rw [if_pos hl', ← h.size]; exact hok.1)
          (by rw [if_pos hl', ← h.size, ← h.offset]; simpa [hl'] using hok.2.1)
        have hlen : s'.length = 0#64 := by rw [e5]; exact hl
        refine ⟨{ s' with stored := (Map.unmap m.world s'.stored s'.kernel).2.1, kernel := (Map.unmap m.world s'.stored s'.kernel).2.2, base := 0#64 }, ?_, ?_⟩
        · simp only [operate, if_neg hb, if_pos hl, hmap, if_neg hr, if_neg hsne]
          simp only [if_pos hl] at e1
          rw [e1]
          simp only [Option.map_some, if_pos hlen]
        · rw [act_fixed]
          constructor
          · exact e2
          · rw [e5]; exact h.mask
          · rw [e5]; exact h.address
          · rw [e5]; exact h.length
          · rw [e5]; exact h.offset
          · rw [e5]; exact h.size
          · exact h.sizes
          · exact e3
          · exact e4
          · simp [hl']
          · intro hc; exact absurd rfl hc
    · have hl' : a.length ≠ 0 := by
        intro e
        apply hl
        apply BitVec.eq_of_toNat_eq
        rw [h.length, e]; rfl
      obtain ⟨r1, r2, r3⟩ := hreg hl'
      rcases hmap : Map.map m.world m.page s.address s.length s.kernel with ⟨r, p, k⟩
      by_cases hr : r = 0#64
      · left
        refine ⟨{ s with base := r, stored := p, kernel := k }, ?_, h.bus, h.out, ?_⟩
        · simp only [operate, if_neg hb, if_neg hl, hmap, if_pos hr]
        · intro most' h8 hmm hg ho
          rcases ho with ⟨_, _, hn⟩ | ⟨hne, _⟩
          · refine map_granted hw hg hp s.address s.length s.kernel hn (by rw [h.length]; omega) (by rw [h.length]; omega) (by rw [h.length]; omega) ?_
            rw [hmap]; exact hr
          · exact hne hb0
      · right
        have hok := (Map.map_maps_partial hw hp s.address s.length (by have := Nat.mod_lt s.address.toNat hp; rw [h.length]; omega) s.kernel k r p hmap).2 hr
        have hown := (map_owns hw hp s.address s.length s.kernel k r p hmap).2 hr
        have g1 : r.toNat % m.page.toNat = a.address % m.page.toNat := by rw [← h.address]; exact hown.2.2.1
        have g2 : r.toNat + a.length ≤ 2 ^ 64 := by rw [← h.length]; exact hok.1
        have g3 : ∀ i, i < a.length → m.memory k (r.toNat + i) = some (a.address + i) := by rw [← h.length, ← h.address]; exact hok.2.1
        obtain ⟨s', e1, e2, e3, e4, e5⟩ := hmain r p k hr (by rw [if_neg hl']; exact g1) (by rw [if_neg hl']; exact g2) (by simp only [if_neg hl']; exact g3)
        have hlen : s'.length ≠ 0#64 := by rw [e5]; exact hl
        refine ⟨s', ?_, ?_⟩
        · simp only [operate, if_neg hb, if_neg hl, hmap, if_neg hr, if_neg hsne]
          simp only [if_neg hl] at e1
          rw [e1]
          simp only [Option.map_some, if_neg hlen]
        · rw [act_fixed]
          constructor
          · exact e2
          · rw [e5]; exact h.mask
          · rw [e5]; exact h.address
          · rw [e5]; exact h.length
          · rw [e5]; exact h.offset
          · rw [e5]; exact h.size
          · exact h.sizes
          · exact e3
          · exact e4
          · rw [e5]; simp only []; simp [hl', hr]
          · intro _; rw [e5]; exact ⟨hl', g2, g1, g3⟩

/-- Whatever the options are, what is mapped is what the program will unmap. -/
theorem operate_owns (hw : Honest m.world m.page.toNat m.memory) (hp : 0 < m.page.toNat) {most : Nat} (hg : Grants m.world m.page.toNat most m.memory) {s : State σ β} (h : Owns m s) (op : Op) (mask : BitVec 64)
    {b : Bool} {s' : State σ β} (ho : operate m op mask s = some (b, s')) : Owns m s' := by
  have hper : ∀ (x y : State σ β) (d : BitVec 64), perform m op mask d x = some y → y.base = x.base ∧ y.stored = x.stored ∧ y.kernel = x.kernel ∧ y.length = x.length := by
    intro x y d hx
    simp only [perform] at hx
    split at hx
    · cases hx
    · simp only [access] at hx
      split at hx
      · cases hx; exact ⟨rfl, rfl, rfl, rfl⟩
      · cases hx; exact ⟨rfl, rfl, rfl, rfl⟩
      · split at hx
        · cases hx
        · cases hx; exact ⟨rfl, rfl, rfl, rfl⟩
  -- the state after the mapping
  have hmap : ∀ (start length : BitVec 64), s.base = 0#64 → Owns m { s with base := (Map.map m.world m.page start length s.kernel).1, stored := (Map.map m.world m.page start length s.kernel).2.1, kernel := (Map.map m.world m.page start length s.kernel).2.2 } := by
    intro start length hb
    rcases h with ⟨_, h1, h2⟩ | ⟨hne, _⟩
    · rcases hm : Map.map m.world m.page start length s.kernel with ⟨r, p, k⟩
      obtain ⟨q1, q2⟩ := map_owns hw hp start length s.kernel _ _ _ hm
      by_cases hr : r = 0#64
      · left
        refine ⟨hr, ?_, ?_⟩
        · simp only [(q1 hr).1]
        · simp only [(q1 hr).2, h2]
      · right
        obtain ⟨z1, z2, _, z4⟩ := q2 hr
        exact ⟨hr, z2, z1, z4 h2⟩
    · exact absurd hb hne
  have hx : ∃ x : State σ β, Owns m x ∧ ((b = true ∧ s' = x ∧ x.base = 0#64) ∨ (b = false ∧ ∃ y, ((y = x) ∨ ∃ d, perform m op mask d x = some y) ∧
      s' = if y.length = 0#64 then { y with stored := (Map.unmap m.world y.stored y.kernel).2.1, kernel := (Map.unmap m.world y.stored y.kernel).2.2, base := 0#64 } else y)) := by
    have fin : ∀ x : State σ β, Owns m x → (if x.base = 0#64 then some (true, x) else (if x.size = 0#64 then some x else perform m op mask (if x.length = 0#64 then x.base else x.base + x.offset) x).map fun s =>
        if s.length = 0#64 then
          (false, { s with stored := (Map.unmap m.world s.stored s.kernel).2.1, kernel := (Map.unmap m.world s.stored s.kernel).2.2, base := 0#64 })
        else (false, s)) = some (b, s') → ∃ x : State σ β, Owns m x ∧ ((b = true ∧ s' = x ∧ x.base = 0#64) ∨ (b = false ∧ ∃ y, ((y = x) ∨ ∃ d, perform m op mask d x = some y) ∧
      s' = if y.length = 0#64 then { y with stored := (Map.unmap m.world y.stored y.kernel).2.1, kernel := (Map.unmap m.world y.stored y.kernel).2.2, base := 0#64 } else y)) := by
      intro x hox he
      refine ⟨x, hox, ?_⟩
      by_cases hb : x.base = 0#64
      · rw [if_pos hb] at he
        cases he
        exact Or.inl ⟨rfl, rfl, hb⟩
      · rw [if_neg hb] at he
        right
        rw [Option.map_eq_some_iff] at he
        obtain ⟨y, hy, he⟩ := he
        by_cases hl : y.length = 0#64
        · rw [if_pos hl] at he
          simp only [Prod.mk.injEq] at he
          refine ⟨he.1.symm, y, ?_, by rw [if_pos hl]; exact he.2.symm⟩
          by_cases hz : x.size = 0#64
          · rw [if_pos hz] at hy; cases hy; exact Or.inl rfl
          · rw [if_neg hz] at hy; exact Or.inr ⟨_, hy⟩
        · rw [if_neg hl] at he
          simp only [Prod.mk.injEq] at he
          refine ⟨he.1.symm, y, ?_, by rw [if_neg hl]; exact he.2.symm⟩
          by_cases hz : x.size = 0#64
          · rw [if_pos hz] at hy; cases hy; exact Or.inl rfl
          · rw [if_neg hz] at hy; exact Or.inr ⟨_, hy⟩
    by_cases hb : s.base ≠ 0#64
    · simp only [operate, if_pos hb] at ho
      exact fin s h ho
    · have hb0 : s.base = 0#64 := Decidable.of_not_not hb
      by_cases hl : s.length = 0#64
      · simp only [operate, if_neg hb, if_pos hl] at ho
        refine fin _ (hmap s.offset s.size hb0) ?_
        simp only [if_pos hl]
        exact ho
      · simp only [operate, if_neg hb, if_neg hl] at ho
        refine fin _ (hmap s.address s.length hb0) ?_
        simp only [if_neg hl]
        exact ho
  obtain ⟨x, hox, h1 | ⟨_, y, hy, hs⟩⟩ := hx
  · rw [h1.2.1]; exact hox
  · have hoy : Owns m y := by
      rcases hy with rfl | ⟨d, hd⟩
      · exact hox
      · obtain ⟨q1, q2, q3, _⟩ := hper _ _ _ hd
        rw [Owns, q1, q2, q3]; exact hox
    rw [hs]
    by_cases hl : y.length = 0#64
    · rw [if_pos hl]
      obtain ⟨z1, z2⟩ := unmap_owned hw hg hoy
      exact Or.inl ⟨rfl, z1, z2⟩
    · rw [if_neg hl]; exact hoy

end

end Diminuto.Memtool
