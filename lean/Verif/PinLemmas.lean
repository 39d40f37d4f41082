import Verif.PinSpec
import Verif.EndpointTextLemmas

/-!
# Lemmas: pins
-/

namespace Diminuto.Pin
open Number (decimal)

variable {σ : Type}

theorem streams_append (a b : List Event) : streams (a ++ b) = streams a ++ streams b := by
  induction a with
  | nil => rfl
  | cons e l ih =>
    rw [List.cons_append]
    cases e with
    | fopen f b' a => cases a <;> simp [streams, ih]
    | _ => simp [streams, ih]

theorem closed_append (a b : List Event) : closed (a ++ b) = closed a ++ closed b := by
  induction a with
  | nil => rfl
  | cons e l ih =>
    rw [List.cons_append]
    cases e <;> simp [closed, ih]

/-- What the attempts to open a file do. -/
theorem attempt_noting (w : World σ) (ticks : BitVec 64) (file : Name) : ∀ (n : Nat) (s : σ) (l : List Event),
    ∃ pre last s' r, attempt (noting w) ticks file n (s, l) = (r, s', l ++ (pre ++ last)) ∧ (∀ e ∈ pre, Waits file ticks e) ∧
      streams pre = [] ∧ closed pre = [] ∧ closed last = [] ∧
      (pre ++ last).countP Event.isStat ≤ n ∧ (0 < n → (pre ++ last).countP Event.isDelay < (pre ++ last).countP Event.isStat) ∧
      (match r with
       | some h => last = [.stat file (.ok ()), .fopen file true (.ok h)]
       | none => streams last = []) := by
  intro n
  induction n with
  | zero => intro s l; exact ⟨[], [], s, none, by simp [attempt], by simp, rfl, rfl, rfl, by simp, by simp, rfl⟩
  | succ n ih =>
    intro s l
    rw [attempt]
    simp only [noting]
    rcases hs : w.stat file s with ⟨a, s1⟩
    simp only []
    cases a with
    | other => exact ⟨[], [.stat file .other], s1, none, by simp, by simp, rfl, rfl, rfl, by simp [List.countP_cons, Event.isStat], by simp [List.countP_cons, Event.isStat, Event.isDelay], rfl⟩
    | transient =>
      simp only []
      by_cases hn : n = 0
      · rw [if_pos hn]
        exact ⟨[], [.stat file .transient], s1, none, by simp, by simp, rfl, rfl, rfl, by simp [List.countP_cons, Event.isStat], by simp [List.countP_cons, Event.isStat, Event.isDelay], rfl⟩
      · rw [if_neg hn]
        obtain ⟨pre, last, s', r, e, h1, h2, h3, h4, h5, h6, h7⟩ := ih (w.delay ticks s1) (l ++ [.stat file .transient] ++ [.delay ticks])
        simp only [noting] at e
        refine ⟨.stat file .transient :: .delay ticks :: pre, last, s', r, ?_, ?_, ?_, ?_, h4, ?_, ?_, h7⟩
        · rw [e]; simp
        · intro x hx
          rcases List.mem_cons.mp hx with rfl | hx
          · exact Or.inl rfl
          · rcases List.mem_cons.mp hx with rfl | hx
            · exact Or.inr (Or.inr (Or.inr rfl))
            · exact h1 x hx
        · simp [streams, h2]
        · simp [closed, h3]
        · simp only [List.cons_append, List.countP_cons, Event.isStat, List.countP_append] at h5 ⊢; simp; omega
        · have h6' := h6 (by omega)
          simp only [List.cons_append, List.countP_cons, Event.isStat, Event.isDelay, List.countP_append] at h6' ⊢
          simp
          omega
    | ok u =>
      obtain rfl : u = () := rfl
      simp only []
      rcases hf : w.fopen file true s1 with ⟨b, s2⟩
      simp only []
      cases b with
      | ok h =>
        exact ⟨[], [.stat file (.ok ()), .fopen file true (.ok h)], s2, some h, by simp, by simp, rfl, rfl, rfl, by simp [List.countP_cons, Event.isStat], by simp [List.countP_cons, Event.isStat, Event.isDelay], rfl⟩
      | other =>
        exact ⟨[], [.stat file (.ok ()), .fopen file true .other], s2, none, by simp, by simp, rfl, rfl, rfl, by simp [List.countP_cons, Event.isStat], by simp [List.countP_cons, Event.isStat, Event.isDelay], rfl⟩
      | transient =>
        simp only []
        by_cases hn : n = 0
        · rw [if_pos hn]
          exact ⟨[], [.stat file (.ok ()), .fopen file true .transient], s2, none, by simp, by simp, rfl, rfl, rfl, by simp [List.countP_cons, Event.isStat], by simp [List.countP_cons, Event.isStat, Event.isDelay], rfl⟩
        · rw [if_neg hn]
          obtain ⟨pre, last, s', r, e, h1, h2, h3, h4, h5, h6, h7⟩ := ih (w.delay ticks s2) (l ++ [.stat file (.ok ())] ++ [.fopen file true .transient] ++ [.delay ticks])
          simp only [noting] at e
          refine ⟨.stat file (.ok ()) :: .fopen file true .transient :: .delay ticks :: pre, last, s', r, ?_, ?_, ?_, ?_, h4, ?_, ?_, h7⟩
          · rw [e]; simp
          · intro x hx
            rcases List.mem_cons.mp hx with rfl | hx
            · exact Or.inr (Or.inl rfl)
            · rcases List.mem_cons.mp hx with rfl | hx
              · exact Or.inr (Or.inr (Or.inl rfl))
              · rcases List.mem_cons.mp hx with rfl | hx
                · exact Or.inr (Or.inr (Or.inr rfl))
                · exact h1 x hx
          · simp [streams, h2]
          · simp [closed, h3]
          · simp only [List.cons_append, List.countP_cons, Event.isStat, List.countP_append] at h5 ⊢; simp; omega
          · have h6' := h6 (by omega)
            simp only [List.cons_append, List.countP_cons, Event.isStat, Event.isDelay, List.countP_append] at h6' ⊢
            simp
            omega

/-- The file names are the ones that are documented for the kernel. -/
theorem path_names (root : Name) (a : Attr) (pin : Nat) : Names root a pin (path root a pin) := by
  have h := EndpointText.decimal_is pin
  cases a
  · rfl
  · exact ⟨_, h, rfl⟩
  · exact ⟨_, h, rfl⟩
  · exact ⟨_, h, rfl⟩
  · exact ⟨_, h, rfl⟩
  · rfl

theorem names_unique (root : Name) (a : Attr) (pin : Nat) (f : Name) (h : Names root a pin f) : f = path root a pin := by
  cases a
  · exact h
  all_goals first
    | exact h
    | (obtain ⟨d, hd, rfl⟩ := h; rw [EndpointText.decimal_unique hd]; rfl)

theorem filename_short (root : Name) (a : Attr) (pin : Nat) (h : (path root a pin).length < PATH) : filename root a pin = path root a pin :=
  List.take_of_length_le (by omega)

theorem tolerated_iff (ignore : Bool) (p : Put) : tolerated ignore p = true ↔ (p = .ok ∨ p = .invalid ∧ ignore = true) := by
  cases p <;> simp [tolerated]

/-- The calls that a configuration makes. -/
theorem configure_noting (w : World σ) (root : Name) (ticks : BitVec 64) (a : Attr) (pin : Int) (hp : 0 ≤ pin) (string : Name) (ignore : Bool) (tries : Nat) (d : BitVec 64) (s : σ)
    (l0 : List Event) : ∃ l s' r, configure (noting w) root ticks a pin string ignore tries d (s, l0) = (r, s', l0 ++ l) ∧
      l.countP Event.isStat ≤ tries ∧ (0 < tries → l.countP Event.isDelay < l.countP Event.isStat) ∧ closed l = streams l ∧
      (r = true ↔ ∃ pre last, l = pre ++ last ∧ (∀ e ∈ pre, Waits (filename root a pin.toNat) ticks e) ∧ Writes (filename root a pin.toNat) string ignore last) := by
  obtain ⟨pre, last, s1, r, e, h1, h2, h3, h4, h5, h6, h7⟩ := attempt_noting w ticks (filename root a pin.toNat) tries s l0
  have hst : ∀ x : List Event, (∀ e ∈ x, e.isStat = false) → x.countP Event.isStat = 0 := by
    intro x hx; rw [List.countP_eq_zero]; intro e he; simp [hx e he]
  have hdl : ∀ x : List Event, (∀ e ∈ x, e.isDelay = false) → x.countP Event.isDelay = 0 := by
    intro x hx; rw [List.countP_eq_zero]; intro e he; simp [hx e he]
  simp only [configure]
  rw [if_neg (by omega), e]
  cases r with
  | none =>
    simp only []
    refine ⟨pre ++ last, s1, false, rfl, h5, h6, ?_, ?_⟩
    · rw [closed_append, streams_append, h3, h4, h2]; simp only [] at h7; rw [h7]
    · refine ⟨(by intro h; cases h), ?_⟩
      rintro ⟨pre', last', he, hw1, h, p, q, hl, -⟩
      exfalso
      have hc := congrArg closed he
      rw [closed_append, h3, h4, closed_append, hl] at hc
      simp [closed] at hc
  | some h =>
    simp only [] at h7 ⊢
    rcases hfp : w.fputs h string s1 with ⟨p, s2⟩
    rcases hff : w.fflush h s2 with ⟨q, s3⟩
    rcases hc1 : w.fclose h s2 with ⟨c1, s4⟩
    rcases hc2 : w.fclose h s3 with ⟨c2, s5⟩
    simp only [noting, hfp, hff, hc1, hc2]
    have hnotform : ∀ (A : List Event) (x y z : Event) (pre' last' : List Event), A ++ [x, y, z] = pre' ++ last' → Writes (filename root a pin.toNat) string ignore last' →
        ∃ g p q, x = .fputs g string p ∧ y = .fflush g q ∧ z = .fclose g true ∧ tolerated ignore p = true ∧ tolerated ignore q = true := by
      rintro A x y z pre' last' he ⟨g, p, q, rfl, hpp, hqq⟩
      rw [show pre' ++ [Event.stat (filename root a pin.toNat) (.ok ()), .fopen (filename root a pin.toNat) true (.ok g), .fputs g string p, .fflush g q, .fclose g true] =
        (pre' ++ [Event.stat (filename root a pin.toNat) (.ok ()), .fopen (filename root a pin.toNat) true (.ok g)]) ++ [.fputs g string p, .fflush g q, .fclose g true] by simp] at he
      have := (List.append_inj' he rfl).2
      simp only [List.cons.injEq, and_true] at this
      exact ⟨g, p, q, this.1, this.2.1, this.2.2, (tolerated_iff _ _).mpr hpp, (tolerated_iff _ _).mpr hqq⟩
    by_cases ht : tolerated ignore p = false
    · rw [if_pos ht]
      refine ⟨pre ++ last ++ [.fputs h string p, .fclose h c1], s4, false, by simp, ?_, ?_, ?_, ?_⟩
      · rw [List.countP_append, hst [.fputs h string p, .fclose h c1] (by simp [Event.isStat])]; exact h5
      · rw [List.countP_append, List.countP_append (p := Event.isStat), hst [.fputs h string p, .fclose h c1] (by simp [Event.isStat]), hdl [.fputs h string p, .fclose h c1] (by simp [Event.isDelay])]
        exact h6
      · simp only [closed_append, streams_append, h3, h4, h2]; rw [h7]; simp [closed, streams]
      · refine ⟨(by intro h; cases h), ?_⟩
        rintro ⟨pre', last', he, -, hw⟩
        exfalso
        rw [h7] at he
        obtain ⟨g, p', q', e1, -⟩ := hnotform (pre ++ [.stat (filename root a pin.toNat) (.ok ())]) (.fopen (filename root a pin.toNat) true (.ok h)) (.fputs h string p) (.fclose h c1) pre' last'
          (by rw [← he]; simp) hw
        cases e1
    · rw [if_neg ht]
      by_cases hq : tolerated ignore q = false
      · rw [if_pos hq]
        refine ⟨pre ++ last ++ [.fputs h string p, .fflush h q, .fclose h c2], s5, false, by simp, ?_, ?_, ?_, ?_⟩
        · rw [List.countP_append, hst [.fputs h string p, .fflush h q, .fclose h c2] (by simp [Event.isStat])]; exact h5
        · rw [List.countP_append, List.countP_append (p := Event.isStat), hst [.fputs h string p, .fflush h q, .fclose h c2] (by simp [Event.isStat]),
            hdl [.fputs h string p, .fflush h q, .fclose h c2] (by simp [Event.isDelay])]
          exact h6
        · simp only [closed_append, streams_append, h3, h4, h2]; rw [h7]; simp [closed, streams]
        · refine ⟨(by intro h; cases h), ?_⟩
          rintro ⟨pre', last', he, -, hw⟩
          exfalso
          obtain ⟨g, p', q', e1, e2, e3, t1, t2⟩ := hnotform (pre ++ last) _ _ _ pre' last' he hw
          cases e2
          rw [hq] at t2; cases t2
      · rw [if_neg hq]
        refine ⟨pre ++ last ++ [.fputs h string p, .fflush h q, .fclose h c2], s5, c2, by simp, ?_, ?_, ?_, ?_⟩
        · rw [List.countP_append, hst [.fputs h string p, .fflush h q, .fclose h c2] (by simp [Event.isStat])]; exact h5
        · rw [List.countP_append, List.countP_append (p := Event.isStat), hst [.fputs h string p, .fflush h q, .fclose h c2] (by simp [Event.isStat]),
            hdl [.fputs h string p, .fflush h q, .fclose h c2] (by simp [Event.isDelay])]
          exact h6
        · simp only [closed_append, streams_append, h3, h4, h2]; rw [h7]; simp [closed, streams]
        · constructor
          · intro hc; subst hc
            refine ⟨pre, last ++ [.fputs h string p, .fflush h q, .fclose h true], by simp, h1, h, p, q, by rw [h7]; rfl, ?_, ?_⟩
            · exact (tolerated_iff _ _).mp (by simpa using ht)
            · exact (tolerated_iff _ _).mp (by simpa using hq)
          · rintro ⟨pre', last', he, -, hw⟩
            obtain ⟨g, p', q', e1, e2, e3, t1, t2⟩ := hnotform (pre ++ last) _ _ _ pre' last' he hw
            cases e3; rfl

end Diminuto.Pin
