import Verif.WalkerLemmas3

/-!
# Walks with related system calls have related results
-/

namespace Diminuto.Walker

/-- Calls in related states return the same and leave related states. -/
structure Related {σ τ : Type} (R : σ → τ → Prop) (a : Sys σ) (b : Sys τ) : Prop where
  lstat : ∀ p s t, R s t → (a.lstat p s).1 = (b.lstat p t).1 ∧ R (a.lstat p s).2 (b.lstat p t).2
  opendir : ∀ p s t, R s t → (a.opendir p s).1 = (b.opendir p t).1 ∧ R (a.opendir p s).2 (b.opendir p t).2
  closedir : ∀ p s t, R s t → (a.closedir p s).1 = (b.closedir p t).1 ∧ R (a.closedir p s).2 (b.closedir p t).2
  callback : ∀ n p d m s t, R s t → (a.callback n p d m s).1 = (b.callback n p d m t).1 ∧ R (a.callback n p d m s).2 (b.callback n p d m t).2

mutual

theorem awalker_rel {σ τ : Type} {R : σ → τ → Prop} {a : Sys σ} {b : Sys τ} (h : Related R a b) (name t : Name) (depth : Nat) (s : σ) (u : τ) (hR : R s u) :
    (awalker a name t depth s).1 = (awalker b name t depth u).1 ∧ R (awalker a name t depth s).2 (awalker b name t depth u).2 := by
  rw [awalker, awalker]
  split
  · exact ⟨rfl, hR⟩
  split
  · exact ⟨rfl, hR⟩
  split
  · exact ⟨rfl, hR⟩
  rename_i h3 h4 h5
  have hl := h.lstat (place t name) s u hR
  rcases hla : a.lstat (place t name) s with ⟨res, s1⟩
  rcases hlb : b.lstat (place t name) u with ⟨res', u1⟩
  rw [hla, hlb] at hl
  simp only [] at hl
  obtain ⟨rfl, hR1⟩ := hl
  cases res with
  | error e =>
    simp only []
    split
    · exact ⟨rfl, hR1⟩
    · exact ⟨rfl, hR1⟩
  | ok mode =>
    have hc := h.callback name (place t name) depth mode s1 u1 hR1
    rcases hca : a.callback name (place t name) depth mode s1 with ⟨rc, s2⟩
    rcases hcb : b.callback name (place t name) depth mode u1 with ⟨rc', u2⟩
    rw [hca, hcb] at hc
    simp only [] at hc
    obtain ⟨rfl, hR2⟩ := hc
    simp only [hca, hcb]
    split
    · exact ⟨rfl, hR2⟩
    split
    · have ho := h.opendir (place t name) s2 u2 hR2
      rcases hoa : a.opendir (place t name) s2 with ⟨res, s3⟩
      rcases hob : b.opendir (place t name) u2 with ⟨res', u3⟩
      rw [hoa, hob] at ho
      simp only [] at ho
      obtain ⟨rfl, hR3⟩ := ho
      cases res with
      | error e =>
        simp only []
        split
        · exact ⟨rfl, hR3⟩
        · exact ⟨rfl, hR3⟩
      | ok nf =>
        obtain ⟨names, fault⟩ := nf
        simp only []
        have hpl := place_length t name
        obtain ⟨e1, hR4⟩ := aentries_rel h names fault (place t name) (depth + 1) s3 u3 hR3
        have hd := h.closedir (place t name) _ _ hR4
        rcases hda : a.closedir (place t name) (aentries a names fault (place t name) (depth + 1) s3).2 with ⟨c, s4⟩
        rcases hdb : b.closedir (place t name) (aentries b names fault (place t name) (depth + 1) u3).2 with ⟨c', u4⟩
        rw [hda, hdb] at hd
        simp only [] at hd
        obtain ⟨rfl, hR5⟩ := hd
        cases c with
        | true => exact ⟨e1, hR5⟩
        | false => exact ⟨rfl, hR5⟩
    · exact ⟨rfl, hR2⟩
termination_by (PATH + 1 - t.length, 0)
decreasing_by
  have := place_length t name
  apply Prod.Lex.left
  omega

theorem aentries_rel {σ τ : Type} {R : σ → τ → Prop} {a : Sys σ} {b : Sys τ} (h : Related R a b) (names : List Name) (fault : Bool) (t : Name) (depth : Nat) (s : σ) (u : τ)
    (hR : R s u) :
    (aentries a names fault t depth s).1 = (aentries b names fault t depth u).1 ∧ R (aentries a names fault t depth s).2 (aentries b names fault t depth u).2 := by
  cases names with
  | nil =>
    rw [aentries, aentries]
    exact ⟨rfl, hR⟩
  | cons name names =>
    rw [aentries, aentries]
    split
    · exact aentries_rel h names fault t depth s u hR
    · obtain ⟨e, hR1⟩ := awalker_rel h name t depth s u hR
      simp only [e]
      split
      · exact aentries_rel h names fault t depth _ _ hR1
      · exact ⟨rfl, hR1⟩
termination_by (PATH + 1 - t.length, names.length + 1)

end

mutual

/-- A walk returns something positive only if the callback does, and after that only closes directories. -/
theorem awalker_positive {σ : Type} {P : σ → Prop} {a : Sys σ} (hc : ∀ n p d m s, 0 < (a.callback n p d m s).1 → P (a.callback n p d m s).2)
    (hd : ∀ p s, P s → P (a.closedir p s).2) (name t : Name) (depth : Nat) (s : σ) : 0 < (awalker a name t depth s).1 → P (awalker a name t depth s).2 := by
  rw [awalker]
  split
  · intro h; simp only [] at h; omega
  split
  · intro h; simp only [] at h; omega
  split
  · intro h; simp only [] at h; omega
  rename_i h3 h4 h5
  rcases hla : a.lstat (place t name) s with ⟨res, s1⟩
  cases res with
  | error e =>
    simp only []
    split
    · intro h; simp only [] at h; omega
    · intro h; simp only [] at h; omega
  | ok mode =>
    have hcc := hc name (place t name) depth mode s1
    rcases hca : a.callback name (place t name) depth mode s1 with ⟨rc, s2⟩
    rw [hca] at hcc
    simp only [hca]
    split
    · exact hcc
    split
    · rcases hoa : a.opendir (place t name) s2 with ⟨res, s3⟩
      cases res with
      | error e =>
        simp only []
        split
        · intro h; simp only [] at h; omega
        · intro h; simp only [] at h; omega
      | ok nf =>
        obtain ⟨names, fault⟩ := nf
        simp only []
        have hpl := place_length t name
        have ih := aentries_positive hc hd names fault (place t name) (depth + 1) s3
        have hdd := hd (place t name) (aentries a names fault (place t name) (depth + 1) s3).2
        rcases hda : a.closedir (place t name) (aentries a names fault (place t name) (depth + 1) s3).2 with ⟨c, s4⟩
        rw [hda] at hdd
        cases c with
        | true => exact fun h => hdd (ih h)
        | false => intro h; simp only [] at h; omega
    · intro h; simp only [] at h; omega
termination_by (PATH + 1 - t.length, 0)
decreasing_by
  have := place_length t name
  apply Prod.Lex.left
  omega

theorem aentries_positive {σ : Type} {P : σ → Prop} {a : Sys σ} (hc : ∀ n p d m s, 0 < (a.callback n p d m s).1 → P (a.callback n p d m s).2)
    (hd : ∀ p s, P s → P (a.closedir p s).2) (names : List Name) (fault : Bool) (t : Name) (depth : Nat) (s : σ) :
    0 < (aentries a names fault t depth s).1 → P (aentries a names fault t depth s).2 := by
  cases names with
  | nil =>
    rw [aentries]
    intro h
    split at h <;> simp at h
  | cons name names =>
    rw [aentries]
    split
    · exact aentries_positive hc hd names fault t depth s
    · have ih := awalker_positive hc hd name t depth s
      simp only []
      split
      · exact aentries_positive hc hd names fault t depth _
      · exact ih
termination_by (PATH + 1 - t.length, names.length + 1)

end

end Diminuto.Walker
