import Verif.RenametoolSpec

/-!
# Property C174: the tool renames without replacing, or exchanges, or does nothing
-/

namespace Diminuto.Renametool

theorem renameat2_done (fs : Names) (r : Request) (a b : List Byte) (x : Bool) (hr : r = if x then .exchange a b else .rename a b) :
    (Possible fs r → ∃ fs', renameat2 true fs a b x = some fs' ∧ Done fs fs' r) ∧ (¬ Possible fs r → renameat2 true fs a b x = none) := by
  subst hr
  unfold renameat2
  cases x
  · simp only [Bool.true_eq_false, if_false, Bool.false_eq_true, Possible]
    cases ha : fs a with
    | none => simp
    | some f =>
      cases hb : fs b with
      | some t => simp
      | none =>
        have hne : b ≠ a := by rintro rfl; rw [ha] at hb; exact (nomatch hb)
        refine ⟨fun _ => ⟨_, rfl, ?_, ?_, ?_⟩, fun h => absurd ⟨by simp, rfl⟩ h⟩
        · simp only [if_neg hne, if_true, ha]
        · simp
        · intro n h1 h2
          simp only [if_neg h1, if_neg h2]
  · simp only [Bool.true_eq_false, if_false, if_true, Possible]
    cases ha : fs a with
    | none => simp
    | some f =>
      cases hb : fs b with
      | none => simp
      | some t =>
        refine ⟨fun _ => ⟨_, rfl, ?_, ?_, ?_⟩, fun h => absurd ⟨by simp, by simp⟩ h⟩
        · by_cases hne : b = a
          · subst hne
            rw [ha] at hb
            simp [ha, hb]
          · simp only [if_neg hne, if_true, ha]
        · simp [hb]
        · intro n h1 h2
          simp only [if_neg h1, if_neg h2]

theorem main_asks (able : Bool) (fs : Names) (argv : List (List Byte)) (r : Request) (h : Asks argv r) :
    ∃ a b x, r = (if x then .exchange a b else .rename a b) ∧ main able fs argv = some (match renameat2 able fs a b x with
      | none => (1, fs)
      | some fs => (0, fs)) := by
  cases h with
  | @rename p a b hx =>
    refine ⟨a, b, false, rfl, ?_⟩
    have : isExchange a = false := by simpa [isExchange] using hx
    simp only [main, List.length_cons, List.length_nil, List.getD_cons_succ, List.getD_cons_zero, this]
    simp
    cases renameat2 able fs a b false <;> rfl
  | @exchange p a b =>
    refine ⟨a, b, true, rfl, ?_⟩
    have : isExchange [45#8, 120#8] = true := rfl
    simp only [main, List.length_cons, List.length_nil, List.getD_cons_succ, List.getD_cons_zero, this]
    simp
    cases renameat2 able fs a b true <;> rfl

/-- C174: what is asked for is done, with status zero, if it is possible, and nothing else; otherwise nothing is done, with status one. -/
theorem main_done (fs : Names) (argv : List (List Byte)) (r : Request) (h : Asks argv r) :
    (Possible fs r → ∃ fs', main true fs argv = some (0, fs') ∧ Done fs fs' r) ∧ (¬ Possible fs r → main true fs argv = some (1, fs)) ∧ main false fs argv = some (1, fs) := by
  obtain ⟨a, b, x, hr, hm⟩ := main_asks true fs argv r h
  obtain ⟨h1, h2⟩ := renameat2_done fs r a b x hr
  refine ⟨?_, ?_, ?_⟩
  · intro hp
    obtain ⟨fs', g1, g2⟩ := h1 hp
    exact ⟨fs', by rw [hm, g1], g2⟩
  · intro hp
    rw [hm, h2 hp]
  · obtain ⟨a, b, x, -, hm⟩ := main_asks false fs argv r h
    rw [hm]
    rfl

/-- C174: if nothing is asked for that the tool knows, nothing is done, with status two. -/
theorem main_usage (able : Bool) (fs : Names) (argv : List (List Byte)) (h0 : argv ≠ []) (h : ¬ ∃ r, Asks argv r) : main able fs argv = some (2, fs) := by
  rcases argv with _ | ⟨p, _ | ⟨a, _ | ⟨b, _ | ⟨c, _ | ⟨d, l⟩⟩⟩⟩⟩
  · exact absurd rfl h0
  · rfl
  · rfl
  · have : isExchange a = true := by
      cases hx : isExchange a with
      | true => rfl
      | false => exact absurd ⟨_, .rename (by simpa [isExchange] using hx)⟩ h
    simp [main, this]
  · have : isExchange a = false := by
      cases hx : isExchange a with
      | false => rfl
      | true =>
        have : a = [45#8, 120#8] := by simpa [isExchange] using hx
        subst this
        exact absurd ⟨_, .exchange⟩ h
    simp [main, this]
  · cases hx : isExchange a <;> simp [main, hx]

/-- C174: whatever the arguments are, no file is lost and none appears: the same files have names before and after. -/
theorem main_keeps (able : Bool) (fs fs' : Names) (argv : List (List Byte)) (s : Nat) (h : main able fs argv = some (s, fs')) (i : Nat) : (∃ n, fs n = some i) ↔ ∃ n, fs' n = some i := by
  by_cases h0 : argv = []
  · subst h0; exact (nomatch h)
  by_cases hr : ∃ r, Asks argv r
  · obtain ⟨r, hr⟩ := hr
    cases able with
    | false => rw [(main_done fs argv r hr).2.2] at h; cases h; exact Iff.rfl
    | true =>
      by_cases hp : Possible fs r
      · obtain ⟨fs'', g1, g2⟩ := (main_done fs argv r hr).1 hp
        rw [g1] at h
        cases h
        cases r with
        | rename a b =>
          obtain ⟨k1, k2, k3⟩ := g2
          constructor
          · rintro ⟨n, hn⟩
            by_cases ha : n = a
            · exact ⟨b, by rw [k1, ← ha, hn]⟩
            · have hb : n ≠ b := by rintro rfl; rw [hp.2] at hn; exact (nomatch hn)
              exact ⟨n, by rw [k3 n ha hb, hn]⟩
          · rintro ⟨n, hn⟩
            by_cases ha : n = a
            · rw [ha, k2] at hn; exact (nomatch hn)
            · by_cases hb : n = b
              · exact ⟨a, by rw [← k1, ← hb, hn]⟩
              · exact ⟨n, by rw [← k3 n ha hb, hn]⟩
        | exchange a b =>
          obtain ⟨k1, k2, k3⟩ := g2
          constructor
          · rintro ⟨n, hn⟩
            by_cases ha : n = a
            · exact ⟨b, by rw [k1, ← ha, hn]⟩
            · by_cases hb : n = b
              · exact ⟨a, by rw [k2, ← hb, hn]⟩
              · exact ⟨n, by rw [k3 n ha hb, hn]⟩
          · rintro ⟨n, hn⟩
            by_cases ha : n = a
            · exact ⟨b, by rw [← k2, ← ha, hn]⟩
            · by_cases hb : n = b
              · exact ⟨a, by rw [← k1, ← hb, hn]⟩
              · exact ⟨n, by rw [← k3 n ha hb, hn]⟩
      · rw [(main_done fs argv r hr).2.1 hp] at h; cases h; exact Iff.rfl
  · rw [main_usage able fs argv h0 hr] at h
    cases h
    exact Iff.rfl

/-- Two files. -/
def two : Names := fun n => if n = [97] then some 1 else if n = [98] then some 2 else none

example : (main true two [[], [97], [99]]).map (fun r => (r.1, r.2 [97], r.2 [98], r.2 [99])) = some (0, none, some 2, some 1) := by decide +kernel

example : (main true two [[], [45, 120], [97], [98]]).map (fun r => (r.1, r.2 [97], r.2 [98])) = some (0, some 2, some 1) := by decide +kernel

example : (main true two [[], [97], [98]]).map (fun r => (r.1, r.2 [97], r.2 [98])) = some (1, some 1, some 2) := by decide +kernel

/-- C174: a file with the name `-x` cannot be renamed under this name: the status is two although it exists and the other name does not. -/
theorem dash_counterexample (fs : Names) (p b : List Byte) : main true fs [p, [45#8, 120#8], b] = some (2, fs) := by rfl

end Diminuto.Renametool
