import Verif.SerialtoolSpec

/-!
# Lemmas for the tool for serial ports: the loops for loop back
-/

namespace Diminuto.Serialtool

section
variable {σ : Type} (a : Api σ) (c : Config)

theorem tally_eq (s : State σ) : tally c s = { s with count := s.count + 1, log := s.log ++ due c.modulo (s.count + 1) } := by
  unfold tally due
  simp only []
  by_cases hm : c.modulo = 0
  · rw [if_pos hm, if_neg (by simp [hm]), List.append_nil]
  · rw [if_neg hm]
    by_cases hd : (s.count + 1) % c.modulo > 0
    · rw [if_pos hd, if_neg (by rintro ⟨-, h⟩; have := Nat.mod_eq_zero_of_dvd h; omega), List.append_nil]
    · rw [if_neg hd, if_pos ⟨hm, Nat.dvd_of_mod_eq_zero (by omega)⟩]
      rfl

theorem plays_due {l : List Act} {k k' : σ} (h : Plays a c l k k') (m n : Nat) : Plays a c (l ++ due m n) k k' := by
  unfold due
  by_cases hm : m ≠ 0 ∧ m ∣ n
  · rw [if_pos hm]; exact .modulo h
  · rw [if_neg hm, List.append_nil]; exact h

/-- What `-F` may come to. -/
def Echoes (k0 : σ) : Outcome σ → Prop
  | .exit code s => code = 0 ∧ Plays a c s.log k0 s.kernel ∧ ((Echo c.modulo s.count s.log ∧ a.done s.kernel = true) ∨ EchoEnds c.modulo s.count s.log)
  | .busy s => Plays a c s.log k0 s.kernel ∧ (Echo c.modulo s.count s.log ∨ EchoEnds c.modulo s.count s.log)
  | .fatal _ => False

theorem forward_over (k0 : σ) (n : Nat) (s : State σ) (ho : over a s = true) (hp : Plays a c s.log k0 s.kernel) (he : EchoEnds c.modulo s.count s.log) : Echoes a c k0 (forward a c n s) := by
  cases n with
  | zero => exact ⟨hp, Or.inr he⟩
  | succ n => simp only [forward, ho, if_true]; exact ⟨rfl, hp, Or.inr he⟩

theorem forward_echoes (k0 : σ) (hf : c.forward = true) : ∀ (n : Nat) (s : State σ), s.done = false → Plays a c s.log k0 s.kernel → Echo c.modulo s.count s.log → Echoes a c k0 (forward a c n s) := by
  intro n
  induction n with
  | zero => intro s _ hp he; exact ⟨hp, Or.inl he⟩
  | succ n ih =>
    intro s hd hp he
    unfold forward
    by_cases ho : over a s = true
    · rw [if_pos ho]
      refine ⟨rfl, hp, Or.inl ⟨he, ?_⟩⟩
      unfold over at ho
      rw [hd, Bool.false_or] at ho; exact ho
    · rw [if_neg ho]
      rcases hg : a.getc 0 s.kernel with ⟨r, k⟩
      have hp1 : Plays a c (s.log ++ [.got r]) k0 k := .got hp (by rw [if_pos hf]; exact hg)
      cases r with
      | some b =>
        simp only []
        rw [tally_eq]
        refine ih _ hd ?_ ?_
        · have := Plays.put (a := a) (c := c) (ok := (a.putc b k).1) (k'' := (a.putc b k).2) hp1 rfl
          simp only [List.append_assoc, List.cons_append, List.nil_append] at this ⊢
          have h2 := plays_due a c this c.modulo (s.count + 1)
          simpa only [List.append_assoc, List.cons_append, List.nil_append] using h2
        · exact .pass he
      | none =>
        simp only []
        by_cases ho' : over a { s with kernel := k, log := s.log ++ [.got none] } = true
        · rw [if_pos ho']
          have hk : a.done k = true := by
            unfold over at ho'
            simp only [hd, Bool.false_or] at ho'; exact ho'
          refine forward_over a c k0 n _ ho' ?_ ⟨s.log, he, Or.inl ?_⟩
          · exact .done hp1 (by rw [hf]; simp) hk
          · simp [report]
        · rw [if_neg ho']
          have hk : a.done k = false := by
            unfold over at ho'
            simp only [hd, Bool.false_or, Bool.not_eq_true] at ho'; exact ho'
          by_cases hc : a.curious k = true
          · rw [if_pos hc]
            refine ih _ hd ?_ ?_
            · exact .curious hp1 (by rw [hf]; simp) hk hc
            · have := Echo.curious he
              simpa [report] using this
          · rw [if_neg hc]
            refine forward_over a c k0 n _ (by simp [over]) ?_ ⟨s.log, he, Or.inr ?_⟩
            · exact .eof hp1 (by rw [hf]; simp) hk (Bool.eq_false_iff.mpr hc)
            · simp [report]

/-! ## -B -/

theorem pattern_zero (p : Bool) : pattern p 0 = if p then 0x21#8 else 0#8 := by cases p <;> rfl

theorem next_pattern (n : Nat) : next c (pattern c.printable n) = pattern c.printable (n + 1) := by
  unfold next pattern
  cases c.printable with
  | true =>
    simp only [if_true]
    have h1 : (BitVec.ofNat 8 (33 + n % 94)).toNat = 33 + n % 94 := by rw [BitVec.toNat_ofNat]; omega
    rw [h1]
    by_cases h : 33 + n % 94 + 1 > 0x7e
    · rw [if_pos h, show (n + 1) % 94 = 0 by omega]
      rfl
    · rw [if_neg h, show (n + 1) % 94 = n % 94 + 1 by omega]
      apply BitVec.eq_of_toNat_eq
      rw [BitVec.toNat_add, h1, BitVec.toNat_ofNat]
      show (33 + n % 94 + 1) % 256 = _
      omega
  | false =>
    simp only [Bool.false_eq_true, if_false]
    apply BitVec.eq_of_toNat_eq
    rw [BitVec.toNat_add, BitVec.toNat_ofNat, BitVec.toNat_ofNat]
    show (n % 256 % 256 + 1) % 256 = _
    omega

/-- What `-B` may come to. -/
def Tests (k0 : σ) : Outcome σ → Prop
  | .exit code s => code = 0 ∧ Plays a c s.log k0 s.kernel ∧ ((Test c.printable c.modulo false s.count s.log ∧ a.done s.kernel = true) ∨ TestEnds c.printable c.modulo s.count s.log)
  | .busy s => Plays a c s.log k0 s.kernel ∧ ((∃ w, Test c.printable c.modulo w s.count s.log) ∨ TestEnds c.printable c.modulo s.count s.log)
  | .fatal _ => False

theorem backward_over (k0 : σ) (n : Nat) (b : Byte) (s : State σ) (ho : over a s = true) (hp : Plays a c s.log k0 s.kernel) (he : TestEnds c.printable c.modulo s.count s.log) :
    Tests a c k0 (backward a c n false b s) := by
  cases n with
  | zero => exact ⟨hp, Or.inr he⟩
  | succ n => simp only [backward, ho, if_true]; exact ⟨rfl, hp, Or.inr he⟩

theorem backward_tests (k0 : σ) (hf : c.forward = false) : ∀ (n : Nat) (w : Bool) (s : State σ), s.done = false → Plays a c s.log k0 s.kernel → Test c.printable c.modulo w s.count s.log →
    Tests a c k0 (backward a c n w (pattern c.printable s.count) s) := by
  intro n
  induction n with
  | zero => intro w s _ hp he; exact ⟨hp, Or.inl ⟨w, he⟩⟩
  | succ n ih =>
    intro w s hd hp he
    cases w with
    | false =>
      unfold backward
      by_cases ho : over a s = true
      · rw [if_pos ho]
        refine ⟨rfl, hp, Or.inl ⟨he, ?_⟩⟩
        unfold over at ho
        rw [hd, Bool.false_or] at ho; exact ho
      · rw [if_neg ho]
        rcases hq : a.putc (pattern c.printable s.count) s.kernel with ⟨ok, k⟩
        simp only []
        exact ih true { s with kernel := k, log := s.log ++ [.put (pattern c.printable s.count) ok] } hd (.put hp hq) (.send he)
    | true =>
      unfold backward
      rcases hg : a.getc c.seconds s.kernel with ⟨r, k⟩
      have hp1 : Plays a c (s.log ++ [.got r]) k0 k := .got hp (by rw [if_neg (by simp [hf])]; exact hg)
      cases r with
      | some b =>
        simp only []
        by_cases hb : b = pattern c.printable s.count
        · rw [if_neg (by simp [hb]), tally_eq, next_pattern]
          refine ih false { s with kernel := k, count := s.count + 1, log := s.log ++ [.got (some b)] ++ due c.modulo (s.count + 1) } hd ?_ ?_
          · exact plays_due a c hp1 _ _
          · have := Test.back he
            rw [← hb] at this; exact this
        · rw [if_pos hb]
          refine backward_over a c k0 n _ _ (by simp [over]) (.mismatch hp1) ⟨s.log, he, Or.inl ⟨b, hb, ?_⟩⟩
          simp
      | none =>
        simp only []
        by_cases hal : a.alarmed k = true
        · rw [if_pos hal]
          refine backward_over a c k0 n _ _ (by simp [over]) (.timeout hp1 hal) ⟨s.log, he, Or.inr ⟨.timeout, by simp, ?_⟩⟩
          simp [report]
        · rw [if_neg hal]
          have hal' : a.alarmed k = false := by simpa using hal
          by_cases ho' : over a { s with kernel := k, log := s.log ++ [.got none] } = true
          · rw [if_pos ho']
            have hk : a.done k = true := by
              unfold over at ho'
              simp only [hd, Bool.false_or] at ho'; exact ho'
            refine backward_over a c k0 n _ _ ho' (.done hp1 (fun _ => hal') hk) ⟨s.log, he, Or.inr ⟨.done, by simp, ?_⟩⟩
            simp [report]
          · rw [if_neg ho']
            have hk : a.done k = false := by
              unfold over at ho'
              simp only [hd, Bool.false_or, Bool.not_eq_true] at ho'; exact ho'
            by_cases hc : a.curious k = true
            · rw [if_pos hc]
              refine ih true { s with kernel := a.calm k, log := s.log ++ [.got none] ++ [.report .curious s.count] } hd (.curious hp1 (fun _ => hal') hk hc) ?_
              have := Test.curious he
              simpa using this
            · rw [if_neg hc]
              refine backward_over a c k0 n _ _ (by simp [over]) (.eof hp1 (fun _ => hal') hk (Bool.eq_false_iff.mpr hc)) ⟨s.log, he, Or.inr ⟨.eof, by simp, ?_⟩⟩
              simp [report]

/-- A line that gives back what it has been given. -/
theorem backward_loopback {line : σ → Option Byte} (hl : Loopback a line) : ∀ (n : Nat) (s : State σ), s.done = false → Test c.printable c.modulo false s.count s.log →
    ∃ s', backward a c (2 * n) false (pattern c.printable s.count) s = .busy s' ∧ s'.count = s.count + n ∧ Test c.printable c.modulo false s'.count s'.log := by
  intro n
  induction n with
  | zero => intro s _ ht; exact ⟨s, rfl, rfl, ht⟩
  | succ n ih =>
    intro s hd ht
    rw [show 2 * (n + 1) = 2 * n + 1 + 1 by omega]
    have ho : over a s = false := by simp [over, hd, hl.quiet]
    simp only [backward, ho]
    rw [if_neg (by simp)]
    obtain ⟨-, h2⟩ := hl.put (pattern c.printable s.count) s.kernel
    have h3 := hl.got c.seconds (a.putc (pattern c.printable s.count) s.kernel).2
    rw [h2] at h3
    rcases hg : a.getc c.seconds (a.putc (pattern c.printable s.count) s.kernel).2 with ⟨r, k⟩
    rw [hg] at h3
    simp only [] at h3
    subst h3
    simp only []
    rw [if_neg (by simp), tally_eq, next_pattern]
    obtain ⟨s', h4, h5, h6⟩ := ih { s with kernel := k, count := s.count + 1, log := s.log ++ [.put (pattern c.printable s.count) (a.putc (pattern c.printable s.count) s.kernel).1] ++ [.got (some (pattern c.printable s.count))] ++ due c.modulo (s.count + 1) } hd
      (.back (.send ht))
    refine ⟨s', h4, ?_, h6⟩
    rw [h5]; simp only []; omega

end

end Diminuto.Serialtool
