import Verif.SerialtoolSpec

/-!
# Lemmas for the tool for serial ports: the interactive mode
-/

namespace Diminuto.Serialtool

section
variable {σ : Type} (a : Api σ) (c : Config) (k0 : σ)

/-- Either a signal, or an end. -/
def Ended (s : State σ) : Prop := (∃ i r, Copies c i r s.log ∧ a.done s.kernel = true) ∨ Quits c s.log

/-- What the interactive mode may come to. -/
def Mux : Outcome σ → Prop
  | .exit code s => code = 0 ∧ c.noinput = false ∧ Plays a c s.log k0 s.kernel ∧ Ended a c s
  | .busy s => Plays a c s.log k0 s.kernel ∧ ((∃ i r, Copies c i r s.log) ∨ Quits c s.log)
  | .fatal s => Plays a c s.log k0 s.kernel ∧ (Fails c s.log ∨ (c.noinput = true ∧ Ended a c s))

/-- The variables and what is known of the standard input. -/
structure Vars (i : Bool) (s : State σ) : Prop where
  registered : s.registered = i
  eof : s.eof = (!c.noinput && !i)
  noinput : c.noinput = true → i = false

/-- In the loops. -/
structure Inv (i : Bool) (r : List End) (s : State σ) : Prop where
  done : s.done = false
  plays : Plays a c s.log k0 s.kernel
  copies : Copies c i r s.log
  vars : Vars c i s

/-- After the loops. -/
structure Halted (s : State σ) : Prop where
  over : over a s = true
  plays : Plays a c s.log k0 s.kernel
  ended : Ended a c s
  vars : ∃ i, Vars c i s

/-- Before waiting. -/
structure Pre (i : Bool) (s : State σ) : Prop where
  done : s.done = false
  plays : Plays a c s.log k0 s.kernel
  copies : ∃ l, Copies c i [] l ∧ ((c.carrierdetect = false ∧ s.log = l) ∨ (c.carrierdetect = true ∧ ∃ r : Int, 0 < r ∧ s.log = l ++ [.status r]))
  vars : Vars c i s

theorem leave_mux {s : State σ} (h : Halted a c k0 s) : Mux a c k0 (leave s) := by
  obtain ⟨i, hv⟩ := h.vars
  unfold leave
  by_cases hl : s.eof = false ∧ s.registered = false
  · rw [if_pos hl]
    refine ⟨h.plays, Or.inr ⟨?_, h.ended⟩⟩
    have h1 := hv.eof
    rw [hl.1, ← hv.registered, hl.2] at h1
    cases hn : c.noinput with
    | true => rfl
    | false => rw [hn] at h1; cases h1
  · rw [if_neg hl]
    refine ⟨rfl, ?_, h.plays, h.ended⟩
    cases hn : c.noinput with
    | false => rfl
    | true =>
      have h2 := hv.noinput hn
      have h1 := hv.eof
      rw [hn] at h1
      exact absurd ⟨h1, by rw [hv.registered, h2]⟩ hl

theorem ended_over {i : Bool} {r : List End} {s : State σ} (h : Inv a c k0 i r s) (ho : over a s = true) : Halted a c k0 s := by
  refine ⟨ho, h.plays, Or.inl ⟨i, r, h.copies, ?_⟩, i, h.vars⟩
  unfold over at ho
  rw [h.done, Bool.false_or] at ho; exact ho

/-- What is done after the inner loop. -/
structure Rest (rest : State σ → Outcome σ) : Prop where
  inv : ∀ i s, Inv a c k0 i [] s → Mux a c k0 (rest s)
  halted : ∀ s, Halted a c k0 s → Mux a c k0 (rest s)

theorem serve_mux {rest : State σ → Outcome σ} (hr : Rest a c k0 rest) : ∀ (l : List End) (i : Bool) (s : State σ), Inv a c k0 i l s → Mux a c k0 (serve a c l s rest) := by
  intro l
  induction l with
  | nil => intro i s h; exact hr.inv i s h
  | cons e r ih =>
    intro i s h
    unfold serve
    by_cases ho : over a s = true
    · rw [if_pos ho]; exact hr.halted s (ended_over a c k0 h ho)
    · rw [if_neg ho]
      by_cases he : e = .terminal ∧ s.registered = false
      · rw [if_pos he]
        have hi : i = false := by rw [← h.vars.registered]; exact he.2
        subst hi
        obtain ⟨rfl, -⟩ := he
        exact ih false s ⟨h.done, h.plays, .skip h.copies, h.vars⟩
      · rw [if_neg he]
        have hi : e = .terminal → i = true := by
          intro h1
          cases hi : i with
          | true => rfl
          | false => exact absurd ⟨h1, by rw [h.vars.registered, hi]⟩ he
        rcases hg : a.read e c.maximum s.kernel with ⟨v, k⟩
        have hp : Plays a c (s.log ++ [.read e v]) k0 k := .read h.plays hg
        simp only []
        cases v with
        | none => exact ⟨hp, Or.inl (Or.inr ⟨i, e, r, s.log, h.copies, hi, Or.inl rfl⟩)⟩
        | some data =>
          simp only []
          by_cases hm : data.length > c.maximum
          · rw [if_pos hm]
            exact ⟨hp, Or.inl (Or.inr ⟨i, e, r, s.log, h.copies, hi, Or.inr (Or.inl ⟨data, hm, rfl⟩)⟩)⟩
          · rw [if_neg hm]
            by_cases hd : data = []
            · rw [if_pos hd]
              subst hd
              by_cases hc : e = .terminal ∧ c.proceed = true
              · rw [if_pos hc]
                obtain ⟨rfl, hpr⟩ := hc
                have hit := hi rfl
                subst hit
                refine ih false _ ⟨h.done, hp, .ended h.copies hpr, rfl, ?_, fun _ => rfl⟩
                cases hn : c.noinput with
                | false => rfl
                | true => exact absurd (h.vars.noinput hn) (by simp)
              · rw [if_neg hc]
                refine hr.halted _ ⟨by simp [over], hp, Or.inr ?_, i, h.vars.registered, h.vars.eof, h.vars.noinput⟩
                cases e with
                | device => exact Or.inr (Or.inl ⟨i, r, s.log, h.copies, rfl⟩)
                | terminal =>
                  have hit := hi rfl
                  subst hit
                  exact Or.inr (Or.inr ⟨r, s.log, h.copies, by simpa using hc, rfl⟩)
            · rw [if_neg hd]
              unfold pass
              rcases hw : a.write e.other data k with ⟨n, k'⟩
              simp only [hw]
              have hp' : Plays a c (s.log ++ [.read e (some data)] ++ [.wrote e.other data n]) k0 k' := .wrote hp hw
              by_cases hn : n = some data.length
              · rw [if_pos hn]
                subst hn
                refine ih i _ ⟨h.done, hp', ?_, h.vars.registered, h.vars.eof, h.vars.noinput⟩
                have := Copies.copy h.copies hi hd (Nat.le_of_not_gt hm)
                simpa using this
              · rw [if_neg hn]
                refine ⟨hp', Or.inl (Or.inr ⟨i, e, r, s.log, h.copies, hi, Or.inr (Or.inr ⟨data, n, hd, Nat.le_of_not_gt hm, hn, ?_⟩)⟩)⟩
                simp

theorem hold_mux {rest : State σ → Outcome σ} (hc : c.carrierdetect = true) {i : Bool} (hr : ∀ s, Pre a c k0 i s → Mux a c k0 (rest s)) :
    ∀ (n : Nat) (s : State σ), Inv a c k0 i [] s → Mux a c k0 (hold a n s rest) := by
  intro n
  induction n with
  | zero => intro s h; exact ⟨h.plays, Or.inl ⟨i, [], h.copies⟩⟩
  | succ n ih =>
    intro s h
    unfold hold
    rcases hs : Serial.status a.port s.kernel with ⟨⟨r, e⟩, k⟩
    have hp : Plays a c (s.log ++ [.status r]) k0 k := .status h.plays hs
    simp only []
    by_cases hn : r < 0
    · rw [if_pos hn]
      exact ⟨hp, Or.inl (Or.inl ⟨i, s.log, h.copies, hc, Or.inl ⟨r, hn, rfl⟩⟩)⟩
    · rw [if_neg hn]
      by_cases hz : r = 0
      · rw [if_neg (by simp [hz])]
        subst hz
        rcases hw : Serial.wait a.port k with ⟨⟨r', e'⟩, k'⟩
        simp only []
        have hp' : Plays a c (s.log ++ [.status 0] ++ [.hold (decide (0 ≤ r'))]) k0 k' := .hold hp hw
        by_cases hn' : r' < 0
        · rw [if_pos hn']
          refine ⟨hp', Or.inl (Or.inl ⟨i, s.log, h.copies, hc, Or.inr ?_⟩)⟩
          have : decide (r' ≥ 0) = false := decide_eq_false (by omega)
          simp [this]
        · rw [if_neg hn']
          refine ih _ ⟨h.done, hp', ?_, h.vars.registered, h.vars.eof, h.vars.noinput⟩
          have h1 : decide (r' ≥ 0) = true := decide_eq_true (by omega)
          have := Copies.hold h.copies hc
          simp only [h1]
          simpa using this
      · rw [if_pos hz]
        exact hr _ ⟨h.done, hp, ⟨s.log, h.copies, Or.inr ⟨hc, r, by omega, rfl⟩⟩, h.vars.registered, h.vars.eof, h.vars.noinput⟩

theorem multiplex_over {s : State σ} (h : Halted a c k0 s) (patience n : Nat) : Mux a c k0 (multiplex a c patience n s) := by
  cases n with
  | zero =>
    refine ⟨h.plays, ?_⟩
    rcases h.ended with ⟨i, r, hc, -⟩ | hq
    · exact Or.inl ⟨i, r, hc⟩
    · exact Or.inr hq
  | succ n => simp only [multiplex, h.over, if_true]; exact leave_mux a c k0 h

theorem multiplex_mux (patience : Nat) : ∀ (n : Nat) (i : Bool) (s : State σ), Inv a c k0 i [] s → Mux a c k0 (multiplex a c patience n s) := by
  intro n
  induction n with
  | zero => intro i s h; exact ⟨h.plays, Or.inl ⟨i, [], h.copies⟩⟩
  | succ n ih =>
    intro i s h
    by_cases ho : over a s = true
    · exact multiplex_over a c k0 (ended_over a c k0 h ho) patience (n + 1)
    · unfold multiplex
      rw [if_neg ho]
      have hrest : ∀ s, Pre a c k0 i s → Mux a c k0 (match a.wait s.kernel with
        | (r, k) =>
          match r with
          | none => multiplex a c patience n { s with kernel := k, log := s.log ++ [.waited r], done := true }
          | some l => if l = [] then multiplex a c patience n { s with kernel := k, log := s.log ++ [.waited r], done := true }
            else serve a c l { s with kernel := k, log := s.log ++ [.waited r] } (multiplex a c patience n)) := by
        clear h ho s
        intro s h
        obtain ⟨l, hcp, hl⟩ := h.copies
        rcases hw : a.wait s.kernel with ⟨r, k⟩
        have hp : Plays a c (s.log ++ [.waited r]) k0 k := .waited h.plays hw
        have hq : r = none ∨ r = some [] → Quits c (s.log ++ [.waited r]) := by
          intro hr
          refine Or.inl ⟨i, l, r, hcp, hr, ?_⟩
          rcases hl with ⟨h1, h2⟩ | ⟨h1, v, h2, h3⟩
          · exact Or.inl ⟨h1, by rw [h2]⟩
          · exact Or.inr ⟨h1, v, h2, by rw [h3]; simp⟩
        cases r with
        | none => exact multiplex_over a c k0 (s := { s with kernel := k, log := s.log ++ [.waited none], done := true }) ⟨by simp [over], hp, Or.inr (hq (Or.inl rfl)), i, h.vars.registered, h.vars.eof, h.vars.noinput⟩ patience n
        | some ready =>
          simp only []
          by_cases hr : ready = []
          · rw [if_pos hr]
            subst hr
            exact multiplex_over a c k0 (s := { s with kernel := k, log := s.log ++ [.waited (some [])], done := true }) ⟨by simp [over], hp, Or.inr (hq (Or.inr rfl)), i, h.vars.registered, h.vars.eof, h.vars.noinput⟩ patience n
          · rw [if_neg hr]
            refine serve_mux a c k0 ⟨fun i s h => ih i s h, fun s h => multiplex_over a c k0 h patience n⟩ ready i _ ⟨h.done, hp, ?_, h.vars.registered, h.vars.eof, h.vars.noinput⟩
            rcases hl with ⟨h1, h2⟩ | ⟨h1, v, h2, h3⟩
            · have := Copies.wait hcp h1 hr
              rw [← h2] at this; exact this
            · have := Copies.carrier hcp h1 h2 hr
              simp only [h3]
              simpa using this
      by_cases hc : c.carrierdetect = true
      · rw [if_pos hc]
        exact hold_mux a c k0 hc hrest patience s h
      · rw [if_neg hc]
        exact hrest s ⟨h.done, h.plays, ⟨s.log, h.copies, Or.inl ⟨by simpa using hc, rfl⟩⟩, h.vars⟩

theorem interactive_mux (patience : Nat) (hm : 0 < c.maximum) : Mux a c k0 (interactive a c patience (.start k0)) := by
  unfold interactive
  rw [if_neg (by omega)]
  refine multiplex_mux a c k0 patience patience (!c.noinput) _ ⟨rfl, .nil, .start, rfl, ?_, ?_⟩
  · cases c.noinput <;> rfl
  · intro h; rw [h]; rfl

end

theorem incoming_append (e : End) (l l' : List Act) : incoming e (l ++ l') = incoming e l ++ incoming e l' := by
  induction l with
  | nil => rfl
  | cons x r ih =>
    rw [List.cons_append]
    cases x with
    | read e' v =>
      cases v with
      | none => exact ih
      | some d => simp only [incoming, ih, List.append_assoc]
    | _ => exact ih

theorem outgoing_append (e : End) (l l' : List Act) : outgoing e (l ++ l') = outgoing e l ++ outgoing e l' := by
  induction l with
  | nil => rfl
  | cons x r ih =>
    rw [List.cons_append]
    cases x with
    | wrote e' d v =>
      cases v with
      | none => exact ih
      | some d => simp only [outgoing, ih, List.append_assoc]
    | _ => exact ih

theorem copies_equal {c : Config} {i : Bool} {r : List End} {l : List Act} (h : Copies c i r l) (e : End) : outgoing e.other l = incoming e l := by
  induction h with
  | start => rfl
  | hold _ _ ih => rw [incoming_append, outgoing_append, ih]; rfl
  | wait _ _ _ ih => rw [incoming_append, outgoing_append, ih]; rfl
  | carrier _ _ _ _ ih => rw [incoming_append, outgoing_append, ih]; rfl
  | skip _ ih => exact ih
  | @copy i e' r l data _ _ _ _ ih =>
    rw [incoming_append, outgoing_append, ih]
    cases e <;> cases e' <;> simp [incoming, outgoing, End.other]
  | ended _ _ ih => rw [incoming_append, outgoing_append, ih]; cases e <;> rfl

theorem quits_equal {c : Config} {l : List Act} (h : Quits c l) (e : End) : outgoing e.other l = incoming e l := by
  rcases h with ⟨i, l', w, hc, -, h⟩ | ⟨i, r, l', hc, rfl⟩ | ⟨r, l', hc, -, rfl⟩
  · rcases h with ⟨-, rfl⟩ | ⟨-, v, -, rfl⟩
    · rw [incoming_append, outgoing_append, copies_equal hc]; rfl
    · rw [incoming_append, outgoing_append, copies_equal hc]; rfl
  · rw [incoming_append, outgoing_append, copies_equal hc]; cases e <;> rfl
  · rw [incoming_append, outgoing_append, copies_equal hc]; cases e <;> rfl

end Diminuto.Serialtool
