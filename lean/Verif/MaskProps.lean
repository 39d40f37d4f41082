import Verif.MaskLemmas

/-!
# The Uninterruptible Section feature
-/

namespace Diminuto.Mask

/-- C115.  At the end of a section the signals that are blocked are those that were so at its beginning, whatever its body does: it may have sections of its own, change the mask, or be cancelled. -/
theorem mask_restored (signals : List Int) (p : Prog) (s : State) (hs : Sound s) (r : State × Bool) (h : run (.sect signals p) s = some r ∨ run (.attempt signals p) s = some r) : r.1.mask = s.mask := by
  by_cases hv : Valid signals
  · obtain ⟨s1, -, -, -, -, h1, h2⟩ := run_section hv p hs
    have h : (run p s1).map (fun r => (setmask s.mask r.1, r.2)) = some r := by
      rcases h with h | h
      · rwa [h1] at h
      · rwa [h2] at h
    rw [Option.map_eq_some_iff] at h
    obtain ⟨r1, -, h⟩ := h
    subst h
    exact setmask_mask hs.kill hs.stop r1.1
  · rcases h with h | h
    · rw [run, block, add_none signals _ hv] at h; cases h
    · rw [run, block, add_none signals _ hv] at h; injection h with h; subst h; rfl

/-- C115.  Claimed: the body of a section is not interrupted by any of its signals.  Shown here for signals other than SIGKILL and SIGSTOP, and for a body that changes the mask only by sections of its own.
The body is begun with these signals blocked, besides those that were so before, and nothing else; none of them is handled in it. -/
theorem mask_blocked_partial (signals : List Int) (hv : Valid signals) (p : Prog) (hg : Signals p) (hp : Plain p) (s : State) (hs : Sound s) (r : State × Bool)
    (h : run (.sect signals p) s = some r ∨ run (.attempt signals p) s = some r) : ∃ s1 r1, run p s1 = some r1 ∧ s1.handled = s.handled ∧ s1.pending = s.pending ∧
      (∀ k : Nat, s1.mask k = true ↔ s.mask k = true ∨ ((k : Int) ∈ signals ∧ k ≠ 9 ∧ k ≠ 19)) ∧ r = (setmask s.mask r1.1, r1.2) ∧
      ∃ l, r1.1.handled = s.handled ++ l ∧ ∀ n ∈ l, ¬ ((n : Int) ∈ signals ∧ n ≠ 9 ∧ n ≠ 19) ∧ s.mask n = false := by
  obtain ⟨s1, e1, e2, hs1, hm, h1, h2⟩ := run_section hv p hs
  have h : (run p s1).map (fun r => (setmask s.mask r.1, r.2)) = some r := by
    rcases h with h | h
    · rwa [h1] at h
    · rwa [h2] at h
  rw [Option.map_eq_some_iff] at h
  obtain ⟨r1, hr, h⟩ := h
  obtain ⟨-, l, hl, hk⟩ := run_plain p s1 hg hp hs1 r1 hr
  refine ⟨s1, r1, hr, e1, e2, hm, h.symm, l, by rw [hl, e1], fun n hn => ⟨fun hc => ?_, ?_⟩⟩
  · have := (hm n).mpr (Or.inr hc)
    rw [hk n hn] at this; cases this
  · cases hb : s.mask n with
    | false => rfl
    | true => have := (hm n).mpr (Or.inl hb); rw [hk n hn] at this; cases this

/-- C115.  With a signal that is none a section that is tried is not entered and nothing has been done, and one that is not is a violation of a contract; with signals a section fails only if its body does. -/
theorem mask_invalid (signals : List Int) (p : Prog) (s : State) : (¬ Valid signals → run (.attempt signals p) s = some (s, false) ∧ run (.sect signals p) s = none) ∧
    (Valid signals → Sound s → (run (.sect signals p) s = none ↔ run (.attempt signals p) s = none) ∧ ((∀ s, run p s ≠ none) → run (.sect signals p) s ≠ none)) := by
  constructor
  · intro hv
    constructor <;> rw [run, block, add_none signals _ hv] <;> rfl
  · intro hv hs
    obtain ⟨s1, -, -, -, -, h1, h2⟩ := run_section hv p hs
    refine ⟨by rw [h1, h2], fun h => ?_⟩
    rw [h1]
    intro he
    rw [Option.map_eq_none_iff] at he
    exact h s1 he

/-- C115.  No signal is lost: one that arrives and is not blocked at the end has been handled, and one that is blocked is pending or has been handled; and none is made up. -/
theorem mask_lossless (p : Prog) (hg : Signals p) (s : State) (hs : Sound s) (r : State × Bool) (h : run p s = some r) (n : Nat) :
    (n ∈ (arrived p).1 → n ∈ r.1.handled ∨ (r.1.pending n = true ∧ r.1.mask n = true)) ∧
    r.1.handled.count n + (if r.1.pending n then 1 else 0) ≤ s.handled.count n + (if s.pending n then 1 else 0) + (arrived p).1.count n := by
  obtain ⟨-, hk⟩ := run_score p s hg hs r h
  obtain ⟨-, h2, h3⟩ := hk n
  refine ⟨fun ha => ?_, h2⟩
  have := h3 ha
  unfold score at this
  by_cases hp : r.1.pending n = true
  · exact Or.inr ⟨hp, ((run_sound p s hg hs r h).pending n hp).1⟩
  · rw [if_neg hp] at this
    exact Or.inl (List.count_pos_iff.mp (by omega))

/-- C115.  A signal that arrives in a section that blocks it, and that was neither blocked nor is it now, is handled once, after the body. -/
theorem mask_once (signals : List Int) (hv : Valid signals) (p : Prog) (hg : Signals p) (hp : Plain p) (s : State) (hs : Sound s) (r : State × Bool)
    (h : run (.sect signals p) s = some r ∨ run (.attempt signals p) s = some r) (n : Nat) (hn : (n : Int) ∈ signals ∧ n ≠ 9 ∧ n ≠ 19) (hm : s.mask n = false) (ha : n ∈ (arrived p).1) :
    ∃ l1 l2, r.1.handled = s.handled ++ l1 ++ l2 ∧ n ∉ l1 ∧ l2.count n = 1 := by
  obtain ⟨s1, r1, hr, e1, e2, hm1, rfl, l, hl, hk⟩ := mask_blocked_partial signals hv p hg hp s hs r h
  have hs1 : Sound s1 := by
    refine ⟨?_, ?_, fun k hk => ?_⟩
    · cases hb : s1.mask 9 with
      | false => rfl
      | true => rcases (hm1 9).mp hb with h | h
                · rw [hs.kill] at h; cases h
                · exact absurd rfl h.2.1
    · cases hb : s1.mask 19 with
      | false => rfl
      | true => rcases (hm1 19).mp hb with h | h
                · rw [hs.stop] at h; cases h
                · exact absurd rfl h.2.2
    · rw [e2] at hk
      exact ⟨(hm1 k).mpr (Or.inl (hs.pending k hk).1), (hs.pending k hk).2⟩
  have hnl : n ∉ l := fun h => (hk n h).1 hn
  have hpend : r1.1.pending n = true := run_pending n p s1 hg hp hs1 ((hm1 n).mpr (Or.inr hn)) r1 hr (Or.inr ha)
  have hso := run_sound p s1 hg hs1 r1 hr
  have e := setmask_score s.mask hso n
  have hq : (setmask s.mask r1.1).pending n = false := by
    show (r1.1.pending n && (s.mask n && decide (n ≠ 9) && decide (n ≠ 19))) = false
    rw [hm]; simp
  have hh : (setmask s.mask r1.1).handled = r1.1.handled ++ (List.range 65).filter fun k => r1.1.pending k && !(s.mask k && decide (k ≠ 9) && decide (k ≠ 19)) := rfl
  refine ⟨l, _, by rw [hh, hl], hnl, ?_⟩
  unfold score at e
  rw [hh, hq, List.count_append, hpend] at e
  simp only [Bool.false_eq_true, if_false, if_true] at e
  omega

/-- A thread that blocks nothing. -/
def fresh : State := ⟨fun _ => false, fun _ => false, []⟩

/-- It is in a state that the system can have. -/
theorem fresh_sound : Sound fresh := ⟨rfl, rfl, fun _ h => by cases h⟩

/-- Two nested sections, in which SIGALRM, 14, SIGHUP, 1, and SIGUSR1, 10, arrive: the last at once, the second after the inner section, and the first after the outer one. -/
example : Valid [14] ∧ Valid [1] ∧ Plain (.seq (.send 14) (.seq (.attempt [1] (.seq (.send 1) (.send 10))) (.send 10))) ∧ Sound fresh ∧
    (run (.sect [14] (.seq (.send 14) (.seq (.attempt [1] (.seq (.send 1) (.send 10))) (.send 10)))) fresh).map (fun r => (r.1.handled, r.1.mask 14, r.2)) = some ([10, 1, 10, 14], false, false) :=
  ⟨by decide, by decide, by simp [Plain], fresh_sound, by decide +kernel⟩

/-- A thread that is cancelled in a section. -/
example : (run (.seq (.sect [14] (.seq (.send 14) .cancel)) (.send 10)) fresh).map (fun r => (r.1.handled, r.1.mask 14, r.2)) = some ([14], false, true) := by decide +kernel

/-- C115, refuted.  SIGKILL and SIGSTOP are accepted, without any error, and do interrupt. -/
theorem mask_kill_counterexample : Valid [9, 19] ∧ (run (.sect [9, 19] (.seq (.send 19) (.mask fun _ => true))) fresh).map (fun r => r.1.handled) = some [19] ∧
    ∃ s1 r1, block [9, 19] fresh = some (s1, fresh.mask) ∧ run (.send 19) s1 = some r1 ∧ r1.1.handled = [19] := by
  refine ⟨by decide, by decide +kernel, _, _, rfl, rfl, by decide +kernel⟩

/-- C115, refuted for counting.  A signal that arrives twice in a section is handled once. -/
theorem mask_twice_counterexample : (arrived (.sect [14] (.seq (.send 14) (.send 14)))).1 = [14, 14] ∧ (run (.sect [14] (.seq (.send 14) (.send 14))) fresh).map (fun r => r.1.handled) = some [14] := by
  refine ⟨rfl, by decide +kernel⟩

end Diminuto.Mask
