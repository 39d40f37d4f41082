import Verif.WipeSpec

/-!
# Lemmas: the errors of the tool that wipes a storage device
-/

namespace Diminuto.Wipe

variable {σ : Type} {d : Device σ} {failures : σ → Nat}

theorem writeBlock_errors (hc : Counts d failures) (sector modulo : Nat) (turns : Nat) : ∀ (s : σ) (pointer : List Byte) (size total errors : Nat) (rc : Sign) (w : Written σ),
    writeBlock d sector modulo turns s pointer size total errors rc = .done w → w.errors + failures s = errors + failures w.device ∧ failures s ≤ failures w.device := by
  induction turns with
  | zero =>
    intro s pointer size total errors rc w h
    cases size with
    | zero => cases h; exact ⟨rfl, Nat.le_refl _⟩
    | succ n => cases h
  | succ turns ih =>
    intro s pointer size total errors rc w h
    cases size with
    | zero => cases h; exact ⟨rfl, Nat.le_refl _⟩
    | succ m =>
      rw [writeBlock] at h; rotate_left; exact nofun
      rcases hw : d.write s (pointer.take (m + 1)) with ⟨r, s'⟩
      rw [hw] at h
      rcases r with n | _ | _
      · have k := hc.bytes _ _ _ _ hw
        cases n with
        | zero => cases h; simp only []; omega
        | succ n =>
          simp only [] at h
          split at h
          · cases h
          · split at h
            · cases h
            · rw [← k]; exact ih _ _ _ _ _ _ _ h
      · have k := hc.nospace _ _ _ hw
        simp only [] at h
        split at h
        · rw [← k]; exact ih _ _ _ _ _ _ _ h
        · cases h; simp only []; omega
      · have k := hc.failed _ _ _ hw
        cases h
        simp only []
        omega

theorem writeAll_errors (hc : Counts d failures) (little : Bool) (block sector modulo : Nat) (turns : Nat) : ∀ (s : σ) (datum : BitVec 64) (total errors : Nat) (w : Written σ),
    writeAll d little block sector modulo turns s datum total errors = .done w → w.errors + failures s = errors + failures w.device ∧ failures s ≤ failures w.device := by
  induction turns with
  | zero => intro s datum total errors w h; cases h
  | succ turns ih =>
    intro s datum total errors w h
    rw [writeAll] at h
    simp only [] at h
    rcases hw : writeBlock d sector modulo block s (fill little (block / 8) datum).1 block total errors .positive with r | _ | _
    · rw [hw] at h
      have k := writeBlock_errors hc _ _ _ _ _ _ _ _ _ _ hw
      simp only [] at h
      split at h
      · have := ih _ _ _ _ _ h
        omega
      · cases h; exact k
    · rw [hw] at h; cases h
    · rw [hw] at h; cases h

theorem readBlock_errors (hc : Counts d failures) (modulo : Nat) (turns : Nat) : ∀ (s : σ) (buffer : List Byte) (size errors : Nat) (rc : Sign) (g : Got σ),
    readBlock d modulo turns s buffer size errors rc = .done g → g.errors + failures s = errors + failures g.device ∧ failures s ≤ failures g.device := by
  induction turns with
  | zero =>
    intro s buffer size errors rc g h
    cases size with
    | zero => cases h; exact ⟨rfl, Nat.le_refl _⟩
    | succ n => cases h
  | succ turns ih =>
    intro s buffer size errors rc g h
    cases size with
    | zero => cases h; exact ⟨rfl, Nat.le_refl _⟩
    | succ m =>
      rw [readBlock] at h; rotate_left; exact nofun
      rcases hr : d.read s (m + 1) with ⟨r, s'⟩
      rw [hr] at h
      rcases r with _ | l
      · have k := hc.unread _ _ _ hr
        cases h
        simp only []
        omega
      · have k := hc.read _ _ _ _ hr
        cases l with
        | nil => cases h; simp only []; omega
        | cons b l =>
          simp only [] at h
          split at h
          · cases h
          · split at h
            · cases h
            · rw [← k]; exact ih _ _ _ _ _ _ h

theorem readAll_errors (hc : Counts d failures) (little : Bool) (block modulo : Nat) (turns : Nat) : ∀ (s : σ) (datum : BitVec 64) (total errors : Nat) (reported : List Nat) (c : Checked σ),
    readAll d little block modulo turns s datum total errors reported = .done c → c.errors + failures s + reported.length = errors + failures c.device + c.reported.length ∧ failures s ≤ failures c.device ∧ reported.length ≤ c.reported.length := by
  induction turns with
  | zero => intro s datum total errors reported c h; cases h
  | succ turns ih =>
    intro s datum total errors reported c h
    rw [readAll] at h
    rcases hg : readBlock d modulo block s [] block errors .positive with g | _ | _
    · rw [hg] at h
      have k := readBlock_errors hc _ _ _ _ _ _ _ _ hg
      simp only [] at h
      split at h
      · cases h; simp only []; omega
      · split at h
        · have := ih _ _ _ _ _ _ h
          rw [List.length_append] at this
          omega
        · cases h
          simp only [List.length_append]
          omega
    · rw [hg] at h; cases h
    · rw [hg] at h; cases h

end Diminuto.Wipe
