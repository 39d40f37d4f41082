import Verif.MuxsignalSpec

/-!
# Property C180: the signals that are blocked while a multiplexer waits are those that have been registered
-/

namespace Diminuto.Muxsignal

/-- C180: a signal that can be used and is not blocked is registered, and nothing else changes; otherwise nothing changes at all. -/
theorem register_effect (m : Mask) (signum : Int) : (Usable signum ∧ m signum = false → (register m signum).1 = signum ∧ (register m signum).2 signum = true ∧ ∀ n, n ≠ signum → (register m signum).2 n = m n) ∧
    (¬ (Usable signum ∧ m signum = false) → (register m signum).2 = m) ∧ (m signum = true ∨ signum < 1 ∨ 64 < signum → (register m signum).1 < 0) := by
  unfold register sigismember sigaddset Usable
  by_cases h1 : signum ≤ 0 ∨ 64 < signum
  · simp only [if_pos h1]
    rw [if_pos (by decide)]
    exact ⟨fun h => absurd h.1 (by omega), fun _ => rfl, fun _ => show (-1 : Int) < 0 by decide⟩
  simp only [if_neg h1]
  cases hm : m signum
  · simp only [Bool.false_eq_true, if_false]
    by_cases h2 : signum ≤ 0 ∨ 64 < signum ∨ signum = 32 ∨ signum = 33
    · simp only [if_pos h2]
      exact ⟨fun h => absurd h.1 (by omega), fun _ => rfl, fun h => absurd h (by simp; omega)⟩
    · simp only [if_neg h2]
      refine ⟨fun _ => ⟨rfl, if_pos rfl, fun n hn => if_neg hn⟩, fun h => absurd ⟨⟨by omega, by omega, by omega, by omega⟩, trivial⟩ h, fun h => absurd h (by simp; omega)⟩
  · simp only [if_true]
    exact ⟨fun h => absurd h.2 (by decide), fun _ => rfl, fun _ => show (-1 : Int) < 0 by decide⟩

/-- C180: a signal that can be used and is blocked is unregistered, and nothing else changes; otherwise nothing changes at all. -/
theorem unregister_effect (m : Mask) (signum : Int) : (Usable signum ∧ m signum = true → (unregister m signum).1 = 0 ∧ (unregister m signum).2 signum = false ∧ ∀ n, n ≠ signum → (unregister m signum).2 n = m n) ∧
    (¬ (Usable signum ∧ m signum = true) → (unregister m signum).2 = m ∧ (unregister m signum).1 ≠ 0) ∧ (m signum = false ∨ signum < 1 ∨ 64 < signum → (unregister m signum).1 < 0) := by
  unfold unregister sigismember sigdelset Usable
  by_cases h1 : signum ≤ 0 ∨ 64 < signum
  · simp only [if_pos h1]
    rw [if_pos (by decide)]
    exact ⟨fun h => absurd h.1 (by omega), fun _ => ⟨rfl, show (-1 : Int) ≠ 0 by decide⟩, fun _ => show (-1 : Int) < 0 by decide⟩
  simp only [if_neg h1]
  cases hm : m signum
  · simp only [Bool.false_eq_true, if_false]
    exact ⟨fun h => absurd h.2 (by decide), fun _ => ⟨rfl, show (-1 : Int) ≠ 0 by decide⟩, fun _ => show (-1 : Int) < 0 by decide⟩
  · simp only [if_true]
    by_cases h2 : signum ≤ 0 ∨ 64 < signum ∨ signum = 32 ∨ signum = 33
    · simp only [if_pos h2]
      exact ⟨fun h => absurd h.1 (by omega), fun _ => ⟨rfl, show (1 : Int) ≠ 0 by decide⟩, fun h => absurd h (by simp; omega)⟩
    · simp only [if_neg h2]
      exact ⟨fun _ => ⟨rfl, if_pos rfl, fun n hn => if_neg hn⟩, fun h => absurd ⟨⟨by omega, by omega, by omega, by omega⟩, trivial⟩ h, fun h => absurd h (by simp; omega)⟩

/-- The mask after one call more. -/
theorem calls_snoc (m : Mask) (cs : List Call) (c : Call) : (calls m (cs ++ [c])).2 = (call (calls m cs).2 c).2 := by
  induction cs generalizing m with
  | nil => rfl
  | cons d cs ih => exact ih _

/-- One call decides only of its own signal, if that can be used. -/
theorem call_blocks (m : Mask) (c : Call) (n : Int) : (call m c).2 n = if c.signum = n ∧ (1 ≤ n ∧ n ≤ 64 ∧ n ≠ 32 ∧ n ≠ 33) then c.registers else m n := by
  obtain ⟨b, k⟩ := c
  cases b
  · have h := unregister_effect m k
    show (unregister m k).2 n = _
    simp only []
    by_cases hu : Usable k ∧ m k = true
    · obtain ⟨_, h1, h2⟩ := h.1 hu
      by_cases hk : k = n
      · rw [if_pos ⟨hk, hk ▸ hu.1⟩, ← hk, h1]
      · rw [if_neg (fun x => hk x.1), h2 n (fun x => hk x.symm)]
    · rw [(h.2.1 hu).1]
      by_cases hk : k = n ∧ (1 ≤ n ∧ n ≤ 64 ∧ n ≠ 32 ∧ n ≠ 33)
      · rw [if_pos hk]
        obtain ⟨rfl, h1⟩ := hk
        cases hm : m k
        · rfl
        · exact absurd ⟨h1, hm⟩ hu
      · rw [if_neg hk]
  · have h := register_effect m k
    show (register m k).2 n = _
    simp only []
    by_cases hu : Usable k ∧ m k = false
    · obtain ⟨_, h1, h2⟩ := h.1 hu
      by_cases hk : k = n
      · rw [if_pos ⟨hk, hk ▸ hu.1⟩, ← hk, h1]
      · rw [if_neg (fun x => hk x.1), h2 n (fun x => hk x.symm)]
    · rw [h.2.1 hu]
      by_cases hk : k = n ∧ (1 ≤ n ∧ n ≤ 64 ∧ n ≠ 32 ∧ n ≠ 33)
      · rw [if_pos hk]
        obtain ⟨rfl, h1⟩ := hk
        cases hm : m k
        · exact absurd ⟨h1, hm⟩ hu
        · rfl
      · rw [if_neg hk]

/-- C180: after any calls a signal is blocked while the multiplexer waits exactly as the last call of that signal says, or if there is none, as it was when the multiplexer was initialized. -/
theorem calls_block (initial : Mask) (cs : List Call) (n : Int) (b : Bool) : Blocks initial cs n b ↔ (calls initial cs).2 n = b := by
  constructor
  · intro h
    induction h with
    | none => rfl
    | this b hu => rw [calls_snoc, call_blocks, if_pos ⟨rfl, hu⟩]
    | other _ hc ih =>
      rw [calls_snoc, call_blocks, if_neg (fun x => hc.elim (fun h => h x.1) (fun h => h x.2))]
      exact ih
  · rintro rfl
    induction hl : cs.length generalizing cs with
    | zero =>
      cases List.eq_nil_of_length_eq_zero hl
      exact .none
    | succ k ih =>
      have hne : cs ≠ [] := by rintro rfl; exact absurd hl (by simp)
      have hd := List.dropLast_concat_getLast hne
      have := ih cs.dropLast (by rw [List.length_dropLast]; omega)
      revert this
      generalize cs.dropLast = before at hd
      generalize cs.getLast hne = c at hd
      subst hd
      intro this
      rw [calls_snoc, call_blocks]
      by_cases h : c.signum = n ∧ (1 ≤ n ∧ n ≤ 64 ∧ n ≠ 32 ∧ n ≠ 33)
      · rw [if_pos h]
        obtain ⟨b, k⟩ := c
        obtain ⟨rfl, hu⟩ := h
        exact .this b hu
      · rw [if_neg h]
        refine .other this ?_
        by_cases hc : c.signum = n
        · exact Or.inr (fun hu => h ⟨hc, hu⟩)
        · exact Or.inl hc

/-- C180, in part: of a signal that is not kept by the library the result of registering is not negative exactly if the signal is blocked now and was not before.  The others are missing: `kept_counterexample`. -/
theorem register_result_partial (m : Mask) (signum : Int) (h : signum ≠ 32 ∧ signum ≠ 33) : 0 ≤ (register m signum).1 ↔ m signum = false ∧ (register m signum).2 signum = true := by
  have e := register_effect m signum
  by_cases hu : Usable signum ∧ m signum = false
  · have := e.1 hu
    exact ⟨fun _ => ⟨hu.2, this.2.1⟩, fun _ => by rw [this.1]; exact Int.le_trans (by decide) hu.1.1⟩
  · constructor
    · intro h0
      exfalso
      have : m signum = true ∨ signum < 1 ∨ 64 < signum := by
        cases hm : m signum
        · right
          by_cases h1 : signum < 1
          · exact Or.inl h1
          · by_cases h2 : 64 < signum
            · exact Or.inr h2
            · exact absurd ⟨⟨by omega, by omega, h.1, h.2⟩, hm⟩ hu
        · exact Or.inl rfl
      have := e.2.2 this
      omega
    · rintro ⟨h1, h2⟩
      rw [e.2.1 hu, h1] at h2
      cases h2

/-- SIGALRM is registered, and registering it again is refused. -/
example : (calls (fun _ => false) [⟨true, 14⟩, ⟨true, 14⟩, ⟨false, 14⟩, ⟨false, 14⟩, ⟨true, 65⟩]).1 = [14, -1, 0, -1, -1] ∧ (register (fun _ => false) 14).2 14 = true ∧ Usable 14 := by
  refine ⟨by decide, by decide, by decide, by decide, by decide, by decide⟩

/-- C180, false of the signals that the library keeps: registering 32 returns zero, which is success, and does not block it; unregistering it, if it is blocked, returns one, which is not an error either, and does not unblock it. -/
theorem kept_counterexample : (register (fun _ => false) 32).1 = 0 ∧ (register (fun _ => false) 32).2 32 = false ∧ (unregister (fun _ => true) 33).1 = 1 ∧ (unregister (fun _ => true) 33).2 33 = true := by decide

end Diminuto.Muxsignal
