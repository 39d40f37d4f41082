import Verif.LinetoolLemmas4

/-!
# Lemmas: what is defined, and what is done when the reader has gone
-/

namespace Diminuto.Linetool

open Diminuto.Number (Reads)

variable {σ : Type} (a : Api σ)

/-! ## What is defined -/

theorem unsigned_reads (text : List Byte) : (∃ g n r, Reads text g n r) ∨ (Number.unsigned text).1 = 0 := by
  by_cases h : ∃ g n r, Reads text g n r
  · exact Or.inl h
  · right
    simp only [not_exists] at h
    rw [(Number.number_none h).1]

theorem signed_reads (text : List Byte) : (∃ g n r, Reads text g n r) ∨ (Number.signed text).1 = 0 := by
  by_cases h : ∃ g n r, Reads text g n r
  · exact Or.inl h
  · right
    simp only [not_exists] at h
    rw [(Number.number_none h).2]

theorem ticks_defined {text : List Byte} (hr : (Number.unsigned text).2.1 = []) (hb : ∀ g n, Reads text g n [] → n ≤ 9223372036854775) : ticks (Number.unsigned text).1 ≠ none := by
  have key : ∀ v : Int, -9223372036854775 ≤ v → v ≤ 9223372036854775 → (BitVec.ofNat 64 (Number.unsigned text).1).toInt = v → ticks (Number.unsigned text).1 ≠ none := by
    intro v h1 h2 h3
    rw [ticks, h3, micro, Time.chk, if_pos (by omega)]
    simp
  rcases unsigned_reads text with ⟨g, n, r, h⟩ | h
  · obtain ⟨q1, q2, _, q4, _⟩ := Number.number_unsigned_reads h
    have hr' : r = [] := q4.symm.trans hr
    subst hr'
    have hn := hb g n h
    cases g with
    | false =>
      refine key n (by omega) (by omega) ?_
      rw [q1 (by omega) rfl, BitVec.toInt_ofNat']
      simp only [Int.bmod_def]
      omega
    | true =>
      obtain ⟨p1, p2⟩ := q2 (by omega) rfl
      refine key (-n) (by omega) (by omega) ?_
      rw [BitVec.toInt_ofNat']
      simp only [Int.bmod_def]
      omega
  · refine key 0 (by decide) (by decide) ?_
    rw [h]; rfl

theorem sticks_defined {text : List Byte} (hr : (Number.signed text).2.1 = []) (hb : ∀ n, Reads text false n [] → n ≤ 9223372036854775) (t : Int) :
    (if (Number.signed text).1 > 0 then Time.units2ticks (Number.signed text).1 1000000 else some t) ≠ none := by
  by_cases hz : (Number.signed text).1 > 0
  · rw [if_pos hz, micro, Time.chk, if_pos]
    · simp
    · rcases signed_reads text with ⟨g, n, r, h⟩ | h
      · obtain ⟨q1, q2, _, q4, q5, _⟩ := Number.number_signed_reads h
        have hr' : r = [] := q5.symm.trans hr
        subst hr'
        cases g with
        | false =>
          have hn := hb n h
          rw [q1 (by omega) rfl]
          omega
        | true =>
          exfalso
          by_cases hn : n ≤ 2 ^ 63
          · rw [q2 hn rfl] at hz; omega
          · rw [q4 (by omega) rfl] at hz; omega
      · omega
  · rw [if_neg hz]; simp

theorem sample_defined (h : Nat) (s : State σ) (rest : Bool → State σ → Flow σ) (hr : ∀ b s', s'.context = s.context → rest b s' ≠ .undefined) : sample a h s rest ≠ .undefined := by
  rcases sample_cases a h s rest with ⟨k, e⟩ | ⟨b, k, e⟩
  · rw [e]; exact fun h => (by cases h)
  · rw [e]; exact hr _ _ rfl

theorem polling_defined (h : Nat) (t : BitVec 64) : ∀ (n : Nat) (cue : Cue.State) (s : State σ), polling a h t n cue s ≠ .undefined := by
  intro n
  induction n with
  | zero => intro cue s q; cases q
  | succ n ih =>
    intro cue s
    rw [polling]
    by_cases hc : s.caught = true
    · rw [if_pos hc]; exact fun q => (by cases q)
    · rw [if_neg hc]
      refine sample_defined a h _ _ fun b s' _ => ?_
      simp only []
      by_cases hq : (Cue.debounce cue (if b then 1 else 0)).r ≠ s.state
      · rw [if_pos hq]; exact ih _ _
      · rw [if_neg hq]; exact ih _ _

theorem watching_defined (h : Nat) : ∀ (n : Nat) (prior : Option Bool) (s : State σ), s.context.path ≠ none → watching a h n prior s ≠ .undefined := by
  intro n
  induction n with
  | zero => intro prior s _ q; cases q
  | succ n ih =>
    intro prior s hp
    rw [watching]
    by_cases hc : s.caught = true
    · rw [if_pos hc]; exact fun q => (by cases q)
    · rw [if_neg hc]
      have h1 := kept_await a h s
      rcases hw : await a h s with ⟨r, s1⟩
      rw [hw] at h1
      have hp1 : s1.context.path ≠ none := by rw [h1.1.2.2.2.1]; exact hp
      cases r with
      | failed => exact fun q => (by cases q)
      | interrupted => exact ih _ _ hp1
      | timeout => exact ih _ _ hp1
      | ready =>
        simp only []
        cases hg : (a.read h s1.kernel).1 with
        | failed => exact fun q => (by cases q)
        | again => exact ih _ _ hp1
        | edge b =>
          simp only []
          unfold notice
          by_cases hq : s1.unique = true ∧ prior = some b
          · rw [if_pos hq]; exact ih _ _ hp1
          · rw [if_neg hq]
            cases hcm : s1.command with
            | none => exact ih _ _ hp1
            | some text =>
              cases hpa : s1.context.path with
              | none => exact absurd hpa hp1
              | some path =>
                simp only []
                by_cases hok : (a.system (commandLine text path s1.context.line b prior) (a.read h s1.kernel).2).1 = true
                · rw [if_pos hok]; exact ih _ _ hp1
                · rw [if_neg hok]; exact fun q => (by cases q)

theorem need_defined (s : State σ) (rest : Nat → Flow σ) (hr : ∀ h, s.fd = some h → rest h ≠ .undefined) : need s rest ≠ .undefined := by
  unfold need
  cases hf : s.fd with
  | none => exact fun q => (by cases q)
  | some h => exact hr h hf

theorem number_defined (text : List Byte) (s : State σ) (rest : Nat → Flow σ) (hr : (Number.unsigned text).2.1 = [] → rest (Number.unsigned text).1 ≠ .undefined) : number text s rest ≠ .undefined := by
  unfold number
  by_cases h : (Number.unsigned text).2.1 ≠ []
  · rw [if_pos h]; exact fun q => (by cases q)
  · rw [if_neg h]; exact hr (Classical.byContradiction h)

theorem number32_defined (text : List Byte) (s : State σ) (rest : BitVec 32 → Flow σ) (hr : ∀ u, rest u ≠ .undefined) : number32 text s rest ≠ .undefined := by
  unfold number32
  refine number_defined _ _ _ fun _ => ?_
  by_cases h : (Number.unsigned text).1 > 4294967295
  · rw [if_pos h]; exact fun q => (by cases q)
  · rw [if_neg h]; exact hr _

theorem store_defined (h : Nat) (b : Bool) (s : State σ) : store a h b s ≠ .undefined := by
  unfold store
  simp only []
  by_cases hok : (a.put h b s.kernel).1 = true
  · rw [if_pos hok]; exact fun q => (by cases q)
  · rw [if_neg hok]; exact fun q => (by cases q)

/-- There is a path if there is a descriptor. -/
def Sound (s : State σ) : Prop := s.fd ≠ none → s.context.path ≠ none

theorem defined_step (patience : Nat) (o : Opt) (s : State σ) (hb : Bounded o) (hs : Sound s) : step a patience o s ≠ .undefined := by
  cases o with
  | debounce text => simp only [step]; exact number32_defined _ _ _ fun _ q => (by cases q)
  | line text => simp only [step]; exact number32_defined _ _ _ fun _ q => (by cases q)
  | place text =>
    simp only [step]
    rcases a.parse text with _ | ⟨path, line, low⟩ <;> exact fun q => (by cases q)
  | daemon =>
    simp only [step]
    by_cases hok : (a.daemon s.kernel).1 = true
    · rw [if_pos hok]; exact fun q => (by cases q)
    · rw [if_neg hok]; exact fun q => (by cases q)
  | poll text =>
    simp only [step]
    refine number_defined _ _ _ fun hr => ?_
    have := ticks_defined hr hb
    cases ht : ticks (Number.unsigned text).1 with
    | none => exact absurd ht this
    | some t => exact need_defined _ _ fun h _ => sample_defined a h _ _ fun b s' _ => polling_defined a h t _ _ _
  | write b => exact need_defined _ _ fun h _ => store_defined a h b s
  | writeText text =>
    simp only [step]
    refine number_defined _ _ _ fun _ => ?_
    exact need_defined _ _ fun h _ => store_defined a h _ s
  | shut =>
    simp only [step]
    by_cases hok : (shut a s).1 = true
    · rw [if_pos hok]; exact fun q => (by cases q)
    · rw [if_neg hok]; exact fun q => (by cases q)
  | clear =>
    simp only [step]
    by_cases hok : (shut a { s with context := blank }).1 = true
    · rw [if_pos hok]; exact fun q => (by cases q)
    · rw [if_neg hok]; exact fun q => (by cases q)
  | test nonzero =>
    simp only [step]
    by_cases hok : s.state = nonzero
    · rw [if_pos hok]; exact fun q => (by cases q)
    · rw [if_neg hok]; exact fun q => (by cases q)
  | watch text =>
    simp only [step]
    by_cases hr : (Number.signed text).2.1 ≠ []
    · rw [if_pos hr]; exact fun q => (by cases q)
    · rw [if_neg hr]
      have := sticks_defined (Classical.byContradiction hr) hb s.sticks
      generalize (if (Number.signed text).1 > 0 then Time.units2ticks (Number.signed text).1 1000000 else some s.sticks) = r at this
      cases r with
      | none => exact absurd rfl this
      | some t =>
        refine need_defined _ _ fun h hf => ?_
        have hp : s.context.path ≠ none := hs (by rw [show s.fd = some h from hf]; simp)
        unfold watch
        simp only []
        by_cases hfi : s.first = true
        · rw [if_pos hfi]
          exact sample_defined a h _ _ fun b s' hc => watching_defined a h _ _ _ (by simp only [flush, print]; rw [hc]; exact hp)
        · rw [if_neg hfi]
          exact watching_defined a h _ _ _ hp
  | read => exact need_defined _ _ fun h _ => sample_defined a h _ _ fun b s' _ q => (by cases q)
  | delay text =>
    simp only [step]
    refine number_defined _ _ _ fun hr => ?_
    have := ticks_defined hr hb
    cases ht : ticks (Number.unsigned text).1 with
    | none => exact absurd ht this
    | some t => exact fun q => (by cases q)
  | configure =>
    simp only [step]
    cases s.fd with
    | some h => exact fun q => (by cases q)
    | none =>
      simp only []
      cases (a.open_ s.context s.kernel).1 <;> exact fun q => (by cases q)
  | _ => exact fun q => (by cases q)

/-- If a line cannot be opened without a path, there is one if there is a descriptor. -/
theorem sound_step (ho : ∀ c k, c.path = none → (a.open_ c k).1 = none) {patience : Nat} {o : Opt} {s s' : State σ} (hs : Sound s) (h : step a patience o s = .next s') : Sound s' := by
  have hkeep : Kept s s' → Sound s' := by
    intro hk hf
    obtain ⟨⟨_, _, _, h4, _, h6⟩, _⟩ := hk
    rw [h4]
    rcases h6 with h6 | h6
    · exact absurd h6 hf
    · exact hs (by rw [← h6]; exact hf)
  cases o with
  | flag f => injection h with h; rw [← h]; exact hs
  | device text => injection h with h; rw [← h]; exact fun _ => (by simp)
  | debounce text => simp only [step] at h; have := number32_next h; injection this with this; rw [← this]; exact hs
  | line text =>
    simp only [step] at h
    have := number32_next h
    injection this with this
    rw [← this]
    intro hf
    simp only []
    rw [invert_path]
    exact hs hf
  | place text =>
    simp only [step] at h
    rcases hp : a.parse text with _ | ⟨path, line, low⟩
    · rw [hp] at h; cases h
    · rw [hp] at h; injection h with h; rw [← h]; intro _; simp only []; rw [invert_path]; simp
  | clear =>
    simp only [step] at h
    cases hb : (shut a { s with context := blank }).1 with
    | true =>
      rw [hb, if_pos rfl] at h
      injection h with h
      intro hf
      exfalso
      apply hf
      rw [← h]
      unfold shut at hb ⊢
      simp only [] at hb ⊢
      cases hfd : s.fd with
      | none => rfl
      | some g =>
        rw [hfd] at hb
        simp only [] at hb ⊢
        rw [hb]; rfl
    | false => rw [hb, if_neg (by simp)] at h; cases h
  | configure =>
    simp only [step] at h
    cases hf : s.fd with
    | some g => rw [hf] at h; cases h
    | none =>
      rw [hf] at h
      simp only [] at h
      cases hg : (a.open_ s.context s.kernel).1 with
      | none => rw [hg] at h; cases h
      | some g =>
        rw [hg] at h
        injection h with h
        rw [← h]
        intro _ hp
        rw [ho s.context s.kernel hp] at hg
        cases hg
  | watch text =>
    obtain ⟨_, _, _, h4, h5, _⟩ := watch_step a patience text s s' (Or.inl h)
    intro hf
    rw [h4]
    rcases h5 with h5 | h5
    · exact absurd h5 hf
    · exact hs (by rw [← h5]; exact hf)
  | first => injection h with h; rw [← h]; exact hs
  | unique => injection h with h; rw [← h]; exact hs
  | command text => injection h with h; rw [← h]; exact hs
  | _ =>
    have hq : ∀ o, step a patience o s = .next s' → isSetting o = false → Sound s' := by
      intro o h ho
      have := keeps_step a patience o s ho
      rw [h] at this
      exact hkeep this
    exact hq _ h rfl

theorem loop_defined (ho : ∀ c k, c.path = none → (a.open_ c k).1 = none) (patience : Nat) : ∀ (opts : List Opt) (s : State σ), (∀ o ∈ opts, Bounded o) → Sound s → loop a patience opts s ≠ .undefined := by
  intro opts
  induction opts with
  | nil => intro s _ _ q; cases q
  | cons o r ih =>
    intro s hb hs
    rw [loop]
    by_cases hc : s.caught = true
    · rw [if_pos hc]; exact fun q => (by cases q)
    · rw [if_neg hc]
      have hd := defined_step a patience o s (hb o (by simp)) hs
      cases he : step a patience o s with
      | undefined => exact absurd he hd
      | stop c t => exact fun q => (by cases q)
      | busy t => exact fun q => (by cases q)
      | next t => exact ih t (fun o ho => hb o (List.mem_cons_of_mem _ ho)) (sound_step a ho hs he)

/-! ## What is done when the reader has gone -/

/-- Nothing is flushed, and no signal is taken. -/
def Calm (s s' : State σ) : Prop := s'.caught = s.caught ∧ s'.pending = s.pending ∧ s'.blocked = s.blocked ∧ ∃ acts, s'.log = s.log ++ acts ∧ ∀ b, Act.flushed b ∉ acts

/-- Whatever comes of it is calm. -/
def Calms (s : State σ) : Flow σ → Prop
  | .next s' => Calm s s'
  | .stop _ s' => Calm s s'
  | .busy _ => False
  | .undefined => True

theorem Calm.refl (s : State σ) : Calm s s := ⟨rfl, rfl, rfl, [], by simp, by simp⟩

theorem Calm.trans {s s1 s2 : State σ} (h : Calm s s1) (h' : Calm s1 s2) : Calm s s2 := by
  obtain ⟨h1, h2, h3, x, h4, h5⟩ := h
  obtain ⟨g1, g2, g3, y, g4, g5⟩ := h'
  exact ⟨g1.trans h1, g2.trans h2, g3.trans h3, x ++ y, by rw [g4, h4, List.append_assoc], fun b hm => (List.mem_append.mp hm).elim (h5 b) (g5 b)⟩

theorem calm_one {s s' : State σ} {e : Act} (h1 : s'.log = s.log ++ [e]) (h2 : s'.caught = s.caught ∧ s'.pending = s.pending ∧ s'.blocked = s.blocked) (he : ∀ b, e ≠ .flushed b) : Calm s s' :=
  ⟨h2.1, h2.2.1, h2.2.2, [e], h1, fun b hm => he b (List.mem_singleton.mp hm).symm⟩

theorem calm_quiet {s s' : State σ} (h1 : s'.log = s.log) (h2 : s'.caught = s.caught ∧ s'.pending = s.pending ∧ s'.blocked = s.blocked) : Calm s s' :=
  ⟨h2.1, h2.2.1, h2.2.2, [], by simp [h1], by simp⟩

theorem calms_need (s : State σ) (rest : Nat → Flow σ) (hr : ∀ h, Calms s (rest h)) : Calms s (need s rest) := by
  unfold need
  cases s.fd with
  | none => exact Calm.refl s
  | some h => exact hr h

theorem calms_number (text : List Byte) (s : State σ) (rest : Nat → Flow σ) (hr : ∀ u, Calms s (rest u)) : Calms s (number text s rest) := by
  unfold number
  by_cases h : (Number.unsigned text).2.1 ≠ []
  · rw [if_pos h]; exact Calm.refl s
  · rw [if_neg h]; exact hr _

theorem calms_number32 (text : List Byte) (s : State σ) (rest : BitVec 32 → Flow σ) (hr : ∀ u, Calms s (rest u)) : Calms s (number32 text s rest) := by
  unfold number32
  refine calms_number _ _ _ fun u => ?_
  by_cases h : u > 4294967295
  · rw [if_pos h]; exact Calm.refl s
  · rw [if_neg h]; exact hr _

theorem calms_store (h : Nat) (b : Bool) (s : State σ) : Calms s (store a h b s) := by
  unfold store
  simp only []
  by_cases hok : (a.put h b s.kernel).1 = true
  · rw [if_pos hok]; exact calm_one rfl ⟨rfl, rfl, rfl⟩ (by simp)
  · rw [if_neg hok]; exact calm_one rfl ⟨rfl, rfl, rfl⟩ (by simp)

theorem calm_shut (s : State σ) : Calm s (shut a s).2 := by
  unfold shut
  cases s.fd with
  | none => exact Calm.refl s
  | some h => exact calm_one rfl ⟨rfl, rfl, rfl⟩ (by simp)

theorem calms_step (patience : Nat) (o : Opt) (s : State σ) (ho : plain o = true) : Calms s (step a patience o s) := by
  cases o with
  | first => exact calm_quiet rfl ⟨rfl, rfl, rfl⟩
  | flag f => exact calm_quiet rfl ⟨rfl, rfl, rfl⟩
  | device text => exact calm_quiet rfl ⟨rfl, rfl, rfl⟩
  | debounce text => simp only [step]; exact calms_number32 _ _ _ fun u => calm_quiet rfl ⟨rfl, rfl, rfl⟩
  | place text =>
    simp only [step]
    rcases a.parse text with _ | ⟨path, line, low⟩
    · exact calm_quiet rfl ⟨rfl, rfl, rfl⟩
    · exact calm_quiet rfl ⟨rfl, rfl, rfl⟩
  | daemon =>
    simp only [step]
    by_cases hok : (a.daemon s.kernel).1 = true
    · rw [if_pos hok]; exact calm_one rfl ⟨rfl, rfl, rfl⟩ (by simp)
    · rw [if_neg hok]; exact calm_one rfl ⟨rfl, rfl, rfl⟩ (by simp)
  | unique => exact calm_quiet rfl ⟨rfl, rfl, rfl⟩
  | command text => exact calm_quiet rfl ⟨rfl, rfl, rfl⟩
  | write b => exact calms_need s _ fun h => calms_store a h b s
  | shut =>
    simp only [step]
    by_cases hok : (shut a s).1 = true
    · rw [if_pos hok]; exact calm_shut a s
    · rw [if_neg hok]; exact calm_shut a s
  | test nonzero =>
    simp only [step]
    by_cases h : s.state = nonzero
    · rw [if_pos h]; exact Calm.refl s
    · rw [if_neg h]; exact Calm.refl s
  | clear =>
    simp only [step]
    have h0 : Calm s { s with context := blank } := calm_quiet rfl ⟨rfl, rfl, rfl⟩
    by_cases hok : (shut a { s with context := blank }).1 = true
    · rw [if_pos hok]; exact h0.trans (calm_shut a _)
    · rw [if_neg hok]; exact h0.trans (calm_shut a _)
  | line text => simp only [step]; exact calms_number32 _ _ _ fun u => calm_quiet rfl ⟨rfl, rfl, rfl⟩
  | read =>
    refine calms_need s _ fun h => ?_
    rcases sample_cases a h s (fun b s => .next (print b s)) with ⟨k, e⟩ | ⟨b, k, e⟩
    · rw [e]; exact calm_one rfl ⟨rfl, rfl, rfl⟩ (by simp)
    · rw [e]
      refine ⟨rfl, rfl, rfl, [.got h (some b), .printed b], by simp [print], by simp⟩
  | delay text =>
    simp only [step]
    refine calms_number _ _ _ fun u => ?_
    cases ticks u with
    | none => trivial
    | some t => exact calm_one rfl ⟨rfl, rfl, rfl⟩ (by simp)
  | writeText text => exact calms_number _ _ _ fun u => calms_need s _ fun h => calms_store a h _ s
  | configure =>
    simp only [step]
    cases s.fd with
    | some h => exact Calm.refl s
    | none =>
      simp only []
      cases (a.open_ s.context s.kernel).1 with
      | none => exact calm_one rfl ⟨rfl, rfl, rfl⟩ (by simp)
      | some g => exact calm_one rfl ⟨rfl, rfl, rfl⟩ (by simp)
  | menu => exact Calm.refl s
  | other => exact Calm.refl s
  | poll text => cases ho
  | watch text => cases ho
  | context => cases ho

/-- Something has failed at the end. -/
def Fails (s : State σ) : Prop := ∃ x e, s.log = x ++ [e] ∧ ¬ Fine e

theorem sample_fails {h : Nat} {s : State σ} {rest : Bool → State σ → Flow σ} {c : Nat} {s' : State σ} (he : sample a h s rest = .stop c s') (hr : ∀ b t, rest b t = .stop c s' → Fails s') : Fails s' := by
  rcases sample_cases a h s rest with ⟨k, e⟩ | ⟨b, k, e⟩
  · rw [e] at he
    injection he with _ he
    exact ⟨s.log, .got h none, by rw [← he], fun q => q rfl⟩
  · rw [e] at he
    exact hr _ _ he

theorem polling_fails (h : Nat) (t : BitVec 64) (c : Nat) (s' : State σ) : ∀ (n : Nat) (cue : Cue.State) (s : State σ), polling a h t n cue s = .stop c s' → Fails s' := by
  intro n
  induction n with
  | zero => intro cue s he; cases he
  | succ n ih =>
    intro cue s he
    rw [polling] at he
    by_cases hc : s.caught = true
    · rw [if_pos hc] at he; cases he
    · rw [if_neg hc] at he
      refine sample_fails a he fun b t he => ?_
      simp only [] at he
      by_cases hq : (Cue.debounce cue (if b then 1 else 0)).r ≠ s.state
      · rw [if_pos hq] at he; exact ih _ _ he
      · rw [if_neg hq] at he; exact ih _ _ he

theorem watching_fails (h : Nat) (c : Nat) (s' : State σ) : ∀ (n : Nat) (prior : Option Bool) (s : State σ), watching a h n prior s = .stop c s' → Fails s' := by
  intro n
  induction n with
  | zero => intro prior s he; cases he
  | succ n ih =>
    intro prior s he
    rw [watching] at he
    by_cases hc : s.caught = true
    · rw [if_pos hc] at he; cases he
    · rw [if_neg hc] at he
      have hw : (await a h s).1 = .failed → ∃ x, (await a h s).2.log = x ++ [.waited h s.sticks .failed] := by
        unfold await
        by_cases hp : s.pending = true
        · rw [if_pos hp]; intro q; cases q
        · rw [if_neg hp]; intro q; simp only [] at q ⊢; exact ⟨s.log, by rw [q]⟩
      rcases hw' : await a h s with ⟨r, s1⟩
      rw [hw'] at he hw
      cases r with
      | failed =>
        obtain ⟨x, hx⟩ := hw rfl
        injection he with _ he
        exact ⟨x, .waited h s.sticks .failed, by rw [← he]; exact hx, fun q => q rfl⟩
      | interrupted => exact ih _ _ he
      | timeout => exact ih _ _ he
      | ready =>
        simp only [] at he
        cases hg : (a.read h s1.kernel).1 with
        | failed =>
          rw [hg] at he
          injection he with _ he
          exact ⟨s1.log, .read h .failed, by rw [← he], fun q => q rfl⟩
        | again => rw [hg] at he; exact ih _ _ he
        | edge b =>
          rw [hg] at he
          simp only [] at he
          unfold notice at he
          by_cases hq : s1.unique = true ∧ prior = some b
          · rw [if_pos hq] at he; exact ih _ _ he
          · rw [if_neg hq] at he
            cases hcm : s1.command with
            | none => rw [hcm] at he; exact ih _ _ he
            | some text =>
              rw [hcm] at he
              simp only [] at he
              cases hpa : s1.context.path with
              | none => rw [hpa] at he; cases he
              | some path =>
                rw [hpa] at he
                simp only [] at he
                cases hok : (a.system (commandLine text path s1.context.line b prior) (a.read h s1.kernel).2).1 with
                | true => rw [hok, if_pos rfl] at he; exact ih _ _ he
                | false =>
                  rw [hok, if_neg (by simp)] at he
                  injection he with _ he
                  exact ⟨s1.log ++ [.read h (.edge b)], .ran (commandLine text path s1.context.line b prior) false, by rw [← he], fun q => (by cases q)⟩

theorem after_after {x : List Act} (h : Act.flushed true ∈ x) (y : List Act) : after (x ++ y) = after x ++ y := by
  induction x with
  | nil => cases h
  | cons e x ih =>
    by_cases he : e = .flushed true
    · subst he; rfl
    · have hm : Act.flushed true ∈ x := by
        rcases List.mem_cons.mp h with h | h
        · exact absurd h.symm he
        · exact h
      have h1 : ∀ l, after (e :: l) = after l := by
        intro l
        cases e with
        | flushed b => cases b with
          | true => exact absurd rfl he
          | false => rfl
        | _ => rfl
      rw [List.cons_append, h1, h1, ih hm]

theorem shut_log (s : State σ) : ∃ z, (shut a s).2.log = s.log ++ z ∧ (z = [] ∨ ∃ h ok, z = [.closed h ok]) := by
  unfold shut
  cases s.fd with
  | none => exact ⟨[], by simp, Or.inl rfl⟩
  | some h => exact ⟨_, rfl, Or.inr ⟨h, _, rfl⟩⟩

theorem finish_ends {c code : Nat} {s s' : State σ} (he : finish a c s = .exit code s') (hm : Act.flushed true ∈ s'.log) :
    code = c ∧ Act.flushed true ∈ s.log ∧ ((after s.log = [] ∨ ∃ h t, after s.log = [.waited h t .interrupted]) → Ends s'.log) := by
  obtain ⟨z, h1, h2⟩ := shut_log a s
  injection he with h3 h4
  have hm' : Act.flushed true ∈ s.log := by
    rw [← h4, h1] at hm
    rcases List.mem_append.mp hm with hm | hm
    · exact hm
    · exfalso
      rcases h2 with rfl | ⟨h, ok, rfl⟩
      · cases hm
      · cases List.mem_singleton.mp hm
  refine ⟨h3.symm, hm', fun hw => ⟨after s.log, z, ?_, hw, h2⟩⟩
  rw [← h4, h1, after_after hm']

theorem calms_ends {patience : Nat} {s : State σ} {f : Flow σ} {code : Nat} {s' : State σ} (hc : Calms s f) (hn : Act.flushed true ∉ s.log)
    (he : (match f with | .next t => loop a patience [] t | .stop c t => finish a c t | .busy t => .busy t | .undefined => .undefined) = .exit code s') (hm : Act.flushed true ∈ s'.log) : False := by
  have key : ∀ c t, Calm s t → finish a c t = .exit code s' → False := by
    intro c t ⟨_, _, _, acts, h1, h2⟩ he
    have := (finish_ends a he hm).2.1
    rw [h1] at this
    rcases List.mem_append.mp this with h | h
    · exact hn h
    · exact h2 true h
  cases f with
  | next t => exact key 0 t hc he
  | stop c t => exact key c t hc he
  | busy t => cases he
  | undefined => cases he

theorem loop_pipe (patience : Nat) (o : Opt) : ∀ (pre : List Opt) (s : State σ), (∀ o ∈ pre, plain o = true) → s.caught = false → s.pending = false → s.blocked = false → Act.flushed true ∉ s.log →
    ∀ code s', loop a patience (pre ++ [o]) s = .exit code s' → Act.flushed true ∈ s'.log → code = 0 ∧ Ends s'.log := by
  intro pre
  induction pre with
  | cons e pre ih =>
    intro s hp hc hpe hb hn code s' he hm
    have h0 := calms_step a patience e s (hp e (by simp))
    rw [List.cons_append, loop, if_neg (by rw [hc]; simp)] at he
    cases hs : step a patience e s with
    | undefined => rw [hs] at he; cases he
    | busy t => rw [hs] at h0; exact h0.elim
    | stop c t => rw [hs] at he h0; exact (calms_ends a (patience := patience) (f := .stop c t) h0 hn he hm).elim
    | next t =>
      rw [hs] at he h0
      obtain ⟨h1, h2, h3, acts, h4, h5⟩ := h0
      refine ih t (fun o ho => hp o (List.mem_cons_of_mem _ ho)) (h1.trans hc) (h2.trans hpe) (h3.trans hb) ?_ code s' he hm
      rw [h4]
      exact fun hm => (List.mem_append.mp hm).elim hn (h5 true)
  | nil =>
    intro s _ hc hpe hb hn code s' he hm
    rw [List.nil_append, loop, if_neg (by rw [hc]; simp)] at he
    by_cases ho : plain o = true
    · exact (calms_ends a (patience := patience) (calms_step a patience o s ho) hn he hm).elim
    · have stay : ∀ c t, t.log = s.log → finish a c t = .exit code s' → False := by
        intro c t ht he
        have := (finish_ends a he hm).2.1
        rw [ht] at this
        exact hn this
      have fails : ∀ c t acts, Fails t → t.log = s.log ++ acts → (after acts = [] ∨ ∃ h tt, after acts = [.waited h tt .interrupted]) → finish a c t = .exit code s' → acts = [] ∨ False := by
        intro c t acts ⟨x, e, h1, h2⟩ h3 h4 he
        by_cases hz : acts = []
        · exact Or.inl hz
        · right
          have hq := (finish_ends a he hm).2.1
          have hma : Act.flushed true ∈ acts := by
            rw [h3] at hq
            exact (List.mem_append.mp hq).elim (fun q => absurd q hn) id
          obtain ⟨y, e', hy⟩ : ∃ y e', acts = y ++ [e'] := ⟨acts.dropLast, acts.getLast hz, (List.dropLast_concat_getLast hz).symm⟩
          have he' : e' = e := by
            rw [h1, hy, ← List.append_assoc] at h3
            have := congrArg List.getLast? h3
            simp only [List.getLast?_concat] at this
            injection this with this
            exact this.symm
          subst he'
          have hmy : Act.flushed true ∈ y := by
            rw [hy] at hma
            rcases List.mem_append.mp hma with q | q
            · exact q
            · exfalso
              have := List.mem_singleton.mp q
              subst this
              exact h2 trivial
          rw [hy, after_after hmy] at h4
          rcases h4 with h4 | ⟨h, tt, h4⟩
          · simp at h4
          · have := congrArg List.getLast? h4
            simp only [List.getLast?_concat, List.getLast?_singleton] at this
            injection this with this
            subst this
            exact h2 (by simp [Fine])
      have finish' : ∀ t acts, t.log = s.log ++ acts → (after acts = [] ∨ ∃ h tt, after acts = [.waited h tt .interrupted]) → finish a 0 t = .exit code s' → code = 0 ∧ Ends s'.log := by
        intro t acts h1 h2 he
        obtain ⟨q1, q2, q3⟩ := finish_ends a he hm
        refine ⟨q1, q3 ?_⟩
        rw [h1, after_quiet hn]
        exact h2
      cases o with
      | context =>
        simp only [step] at he
        refine finish' _ [.shown s.context s.fd, .flushed (a.flush s.kernel).1] (by simp [flush]) ?_ he
        cases (a.flush s.kernel).1 <;> exact Or.inl rfl
      | poll text =>
        simp only [step, number] at he
        by_cases hr : (Number.unsigned text).2.1 ≠ []
        · rw [if_pos hr] at he; exact (stay _ _ rfl he).elim
        · rw [if_neg hr] at he
          cases ht : ticks (Number.unsigned text).1 with
          | none => rw [ht] at he; cases he
          | some t =>
            rw [ht] at he
            simp only [need] at he
            cases hf : s.fd with
            | none => rw [hf] at he; exact (stay _ _ rfl he).elim
            | some h =>
              rw [hf] at he
              simp only [] at he
              cases hs : poll a patience t h s with
              | undefined => rw [hs] at he; cases he
              | busy u => rw [hs] at he; cases he
              | stop c u =>
                rw [hs] at he
                obtain ⟨acts, g1, _, _, _, _, _, _, g2⟩ := poll_reports a h t patience s u hc (Or.inr (Or.inl ⟨c, hs⟩))
                have hfail : Fails u := by
                  rw [poll] at hs
                  exact sample_fails a hs fun b t' q => polling_fails a h t c u _ _ _ q
                rcases fails c u acts hfail g1 (Or.inl (g2 hb).1) he with q | q
                · exact (stay c u (by rw [g1, q]; simp) he).elim
                · exact q.elim
              | next u =>
                rw [hs] at he
                obtain ⟨acts, g1, _, _, _, _, _, _, g2⟩ := poll_reports a h t patience s u hc (Or.inl hs)
                exact finish' u acts g1 (Or.inl (g2 hb).1) he
      | watch text =>
        simp only [step] at he
        by_cases hr : (Number.signed text).2.1 ≠ []
        · rw [if_pos hr] at he; exact (stay _ _ rfl he).elim
        · rw [if_neg hr] at he
          generalize (if (Number.signed text).1 > 0 then Time.units2ticks (Number.signed text).1 1000000 else some s.sticks) = r at he
          cases r with
          | none => cases he
          | some t =>
            simp only [need] at he
            cases hf : s.fd with
            | none => rw [hf] at he; exact (stay 2 { s with sticks := t, fd := none } rfl he).elim
            | some h =>
              rw [hf] at he
              simp only [] at he
              cases hs : watch a patience h { s with sticks := t, fd := some h } with
              | undefined => rw [hs] at he; cases he
              | busy u => rw [hs] at he; cases he
              | stop c u =>
                rw [hs] at he
                obtain ⟨acts, g1, _, _, _, _, _, _, _, _, g2, _⟩ := watch_reports a patience h _ u (by exact hc) (by exact hpe) (Or.inr (Or.inl ⟨c, hs⟩))
                have hfail : Fails u := by
                  rw [watch] at hs
                  simp only [] at hs
                  by_cases hfi : s.first = true
                  · rw [if_pos hfi] at hs
                    exact sample_fails a hs fun b t' q => watching_fails a h c u _ _ _ q
                  · rw [if_neg hfi] at hs
                    exact watching_fails a h c u _ _ _ hs
                have g2' : after acts = [] ∨ ∃ h tt, after acts = [.waited h tt .interrupted] := g2.elim Or.inl fun q => Or.inr ⟨_, _, q⟩
                rcases fails c u acts hfail g1 g2' he with q | q
                · exact (stay c u (by rw [g1, q]; simp) he).elim
                · exact q.elim
              | next u =>
                rw [hs] at he
                obtain ⟨acts, g1, _, _, _, _, _, _, _, _, g2, _⟩ := watch_reports a patience h _ u (by exact hc) (by exact hpe) (Or.inl hs)
                exact finish' u acts g1 (g2.elim Or.inl fun q => Or.inr ⟨_, _, q⟩) he
      | _ => exact absurd rfl ho

end Diminuto.Linetool
