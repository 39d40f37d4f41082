import Verif.MemtoolLemmas3

/-!
# Lemmas: the machine for examples
-/

namespace Diminuto.Memtool

open Diminuto.Map (World Stored within whole Honest whole_ge)

theorem whole_pages {n : Nat} (h : 0 < n) : whole 4096 n = ((n - 1) / 4096 + 1) * 4096 := by
  simp only [whole]
  omega

theorem calls_honest : Honest calls 4096 virtual where
  open_ := fun _ => rfl
  close := fun _ _ => rfl
  failed := by
    intro n fd a s s' h
    simp only [calls] at h
    split at h
    · simp at h
    · simp at h; rw [h]
  mapped := by
    intro n fd a s s' base h
    simp only [calls] at h
    split at h
    · rename_i hc
      simp only [Prod.mk.injEq, Option.some.injEq] at h
      obtain ⟨rfl, rfl⟩ := h
      have h6 : (65536#64).toNat = 65536 := by decide
      refine ⟨hc.1, hc.2.2.1, by decide, by decide, ?_, ?_, ?_⟩
      · rw [whole_pages hc.1]; omega
      · intro v _; rw [hc.2.2.2]; rfl
      · funext v
        rw [hc.2.2.2]
        simp only [virtual, within, whole_pages hc.1, h6]
    · simp at h
  kept := by
    intro b n s s' rc h hrc
    simp only [calls] at h
    split at h
    · simp at h; rw [← h.2]
    · split at h
      · simp at h; omega
      · simp at h; rw [h.2]
  unmapped := by
    intro b n s s' rc h hrc
    simp only [calls] at h
    split at h
    · simp at h; omega
    · rename_i k a
      split at h
      · rename_i hc
        simp only [Prod.mk.injEq] at h
        refine ⟨h.1.symm, ?_⟩
        rw [← h.2]
        have h6 : b.toNat = 65536 := by rw [hc.1]; decide
        funext v
        simp only [virtual, within, whole_pages hc.2.1, h6, hc.2.2]
        split
        · rfl
        · rfl
      · simp at h; omega

theorem example_honest : Honest example_.world example_.page.toNat example_.memory := calls_honest

/-- The machine for examples grants regions of up to 65536 bytes. -/
theorem example_grants : Grants example_.world example_.page.toNat 65536 example_.memory where
  opens := fun _ _ => by simp [example_, calls]
  maps := by
    intro n fd a s hn h0 hm ha
    have hs : s = none := by
      cases s with
      | none => rfl
      | some p =>
        have := congrFun hn 65536
        simp only [example_, virtual] at this
        rw [if_pos (by omega)] at this
        cases this
    have hpg : example_.page.toNat = 4096 := by decide
    rw [hpg] at hm ha
    simp only [example_, calls]
    rw [if_pos ⟨h0, by omega, ha, hs⟩]
    intro h; cases h
  unmaps := by
    intro b n s h0 hb hv
    have hpg : example_.page.toNat = 4096 := by decide
    rw [hpg] at hb hv
    have hw := whole_pages h0
    cases s with
    | none =>
      have := (hv b.toNat).2 ⟨Nat.le_refl _, by omega⟩
      exact absurd rfl this
    | some p =>
      obtain ⟨k, a⟩ := p
      have hv' : ∀ v, (65536 ≤ v ∧ v < 65536 + (k + 1) * 4096) ↔ (b.toNat ≤ v ∧ v < b.toNat + ((n.toNat - 1) / 4096 + 1) * 4096) := by
        intro v
        have := hv v
        simp only [example_, virtual, within, hw] at this
        rw [← this]
        by_cases hc : 65536 ≤ v ∧ v < 65536 + (k + 1) * 4096
        · rw [if_pos hc]
          exact ⟨fun _ h => (by cases h), fun _ => hc⟩
        · rw [if_neg hc]
          exact ⟨fun h => absurd h hc, fun h => absurd rfl h⟩
      have e1 := (hv' 65536).1 (by omega)
      have e2 := (hv' b.toNat).2 (by omega)
      have hbe : b.toNat = 65536 := by omega
      have e3 := (hv' (65536 + (k + 1) * 4096 - 1)).1 (by omega)
      have e4 := (hv' (b.toNat + ((n.toNat - 1) / 4096 + 1) * 4096 - 1)).2 (by omega)
      have hk : (n.toNat - 1) / 4096 = k := by omega
      simp only [example_, calls]
      rw [if_pos ⟨BitVec.eq_of_toNat_eq (by rw [hbe]; decide), h0, hk⟩]
      simp

end Diminuto.Memtool
