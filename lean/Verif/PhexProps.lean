import Verif.PhexLemmas

/-!
# Property C72: print hexadecimal
-/

namespace Diminuto.Phex

/-! ## Properties -/

/-- C72: the printed characters read back as the bytes (without the newlines, if those are not escaped), for every line length, and
whatever the state was. -/
theorem phex_reads_back (o : Options) (input : List Byte) (s : State) :
    ∃ out s', emitAll o input s = some (out, s') ∧
      read .plain out = (.plain, if o.nl then input.filter (fun c => c ≠ ch '\n') else input) := by
  induction input generalizing s with
  | nil => exact ⟨[], s, rfl, by simp [read]⟩
  | cons c cs ih =>
    by_cases hc : c = ch '\n' ∧ o.nl = true
    · obtain ⟨rfl, hn⟩ := hc
      obtain ⟨out, s', e, hr⟩ := ih (limit o.length (-1#64) s).2
      refine ⟨_, s', by simp only [emitAll, emit, token_newline o hn, Option.map_some, Option.bind_some, e]; rfl, ?_⟩
      rw [read_append, List.append_nil, read_limit, hr]
      simp [hn]
    · obtain ⟨i, t, ht, hrt, -⟩ := token_good o c hc
      obtain ⟨out, s', e, hr⟩ := ih (limit o.length i s).2
      refine ⟨_, s', by simp only [emitAll, emit, ht, Option.map_some, Option.bind_some, e]; rfl, ?_⟩
      rw [read_append, read_append, read_limit, hrt, hr]
      by_cases hn : o.nl = true
      · have : c ≠ ch '\n' := fun h => hc ⟨h, hn⟩
        simp [hn, this]
      · simp [hn]

/-- C72: only printable characters of ASCII and newlines are printed. -/
theorem phex_printable (o : Options) (input : List Byte) (s : State) (out : List Byte) (s' : State)
    (h : emitAll o input s = some (out, s')) : ∀ b ∈ out, b = ch '\n' ∨ (32#8 ≤ b ∧ b ≤ 126#8) := by
  have hlim : ∀ i s, ∀ b ∈ (limit o.length i s).1, b = ch '\n' := by
    intro i s b hb
    rcases limit_out o.length i s with e | e <;> rw [e] at hb <;> simpa using hb
  induction input generalizing s out with
  | nil =>
    simp only [emitAll, Option.some.injEq, Prod.mk.injEq] at h
    simp [← h.1]
  | cons c cs ih =>
    by_cases hc : c = ch '\n' ∧ o.nl = true
    · obtain ⟨rfl, hnl⟩ := hc
      simp only [emitAll, emit, token_newline o hnl, Option.map_some, Option.bind_some, Option.map_eq_some_iff, Prod.mk.injEq] at h
      obtain ⟨⟨x, y⟩, h1, rfl, h3⟩ := h
      simp only [] at h3
      subst h3
      intro b hb
      simp only [List.append_nil, List.mem_append] at hb
      rcases hb with hb | hb
      · exact Or.inl (hlim _ _ _ hb)
      · exact ih _ _ h1 b hb
    · obtain ⟨i, t, ht, -, -, -, -, -, -, hp⟩ := token_good o c hc
      simp only [emitAll, emit, ht, Option.map_some, Option.bind_some, Option.map_eq_some_iff, Prod.mk.injEq] at h
      obtain ⟨⟨x, y⟩, h1, rfl, h3⟩ := h
      simp only [] at h3
      subst h3
      intro b hb
      simp only [List.mem_append] at hb
      rcases hb with (hb | hb) | hb
      · exact Or.inl (hlim _ _ _ hb)
      · exact Or.inr (hp b hb)
      · exact ih _ _ h1 b hb

/-- C72: if newlines are escaped (or there are none), then at no time more than the given number of characters are on a line (or four, if that is
more), and lines are ended only if the next character does not fit. -/
theorem phex_lines_partial (o : Options) (input : List Byte) (hn : o.nl = true → ch '\n' ∉ input) (hL : o.length ≠ 0#64)
    (hb : o.length.toNat + 4 < 2 ^ 64) (out : List Byte) (s' : State) (h : emitAll o input {} = some (out, s')) :
    (∀ p q, out = p ++ q → column 0 p ≤ max o.length.toNat 4) ∧
    (∀ p q, out = p ++ ch '\n' :: q → column 0 p + width q > o.length.toNat) := by
  obtain ⟨ts, s'', hf, e⟩ := emitAll_eq o input (fun c hc hx => hn hx.2 (hx.1 ▸ hc)) hL hb {} (by simp)
  rw [e, Option.some.injEq, Prod.mk.injEq] at h
  obtain ⟨rfl, -⟩ := h
  refine ⟨?_, fun p q hpq => wrap_break _ _ hf _ _ _ hpq⟩
  intro p q hpq
  have := wrap_bound o.length.toNat ts hf 0 (by simp) p.length
  have e2 : wrap o.length.toNat 0 ts = p ++ q := hpq
  rw [e2, List.take_left] at this
  exact this

/-- C72: if the length is zero there are no lines. -/
theorem phex_unlimited (o : Options) (input : List Byte) (hL : o.length = 0#64) (s : State) (out : List Byte) (s' : State)
    (h : emitAll o input s = some (out, s')) : ch '\n' ∉ out := by
  have hlim : ∀ i s, limit o.length i s = ([], s) := fun i s => by simp [limit, hL]
  induction input generalizing s out with
  | nil =>
    simp only [emitAll, Option.some.injEq, Prod.mk.injEq] at h
    simp [← h.1]
  | cons c cs ih =>
    by_cases hc : c = ch '\n' ∧ o.nl = true
    · obtain ⟨rfl, hnl⟩ := hc
      simp only [emitAll, emit, token_newline o hnl, Option.map_some, Option.bind_some, hlim, Option.map_eq_some_iff, Prod.mk.injEq] at h
      obtain ⟨⟨x, y⟩, h1, rfl, h3⟩ := h
      simp only [] at h3
      subst h3
      simpa using ih s x h1
    · obtain ⟨i, t, ht, -, hm, -⟩ := token_good o c hc
      simp only [emitAll, emit, ht, Option.map_some, Option.bind_some, hlim, Option.map_eq_some_iff, Prod.mk.injEq] at h
      obtain ⟨⟨x, y⟩, h1, rfl, h3⟩ := h
      simp only [] at h3
      subst h3
      have := ih s x h1
      simp [hm, this]

/-- C72: the last line can be ended, unless its first character is also its last. -/
theorem phex_finish_partial (o : Options) (input : List Byte) (c : Byte) (hn : o.nl = true → ch '\n' ∉ input ++ [c]) (hL : o.length ≠ 0#64)
    (hb : o.length.toNat + 4 < 2 ^ 64) (s s1 s2 : State) (out1 out2 : List Byte) (hs : s.current.toNat ≤ max o.length.toNat 4)
    (h2 : emit o c s1 = some (out2, s2)) (h1 : emitAll o input s = some (out1, s1))
    (hf : ch '\n' ∉ out2) : (limit o.length 0#64 s2).1 = [ch '\n'] := by
  have hs1 : s1.current.toNat ≤ max o.length.toNat 4 := by
    clear h2 hf
    induction input generalizing s out1 with
    | nil =>
      simp only [emitAll, Option.some.injEq, Prod.mk.injEq] at h1
      rw [← h1.2]
      exact hs
    | cons d ds ih =>
      obtain ⟨i, t, ht, -, -, e2, -, e4, e5, -⟩ := token_good o d (fun hx => hn hx.2 (by simp [hx.1]))
      simp only [emitAll, emit, ht, Option.map_some, Option.bind_some, Option.map_eq_some_iff, Prod.mk.injEq] at h1
      obtain ⟨⟨x, y⟩, g1, -, g3⟩ := h1
      simp only [] at g3
      subst g3
      obtain ⟨-, q2, -⟩ := limit_eq (s := s) hL hb e2 e4 e5 hs
      exact ih (fun hx hm => hn hx (by simp at hm ⊢; exact Or.inr hm)) _ _ (by rw [q2]; split <;> omega) g1
  obtain ⟨i, t, ht, -, -, e2, -, e4, e5, -⟩ := token_good o c (fun hx => hn hx.2 (by simp [hx.1]))
  simp only [emit, ht, Option.map_some, Option.some.injEq, Prod.mk.injEq] at h2
  obtain ⟨rfl, rfl⟩ := h2
  obtain ⟨q1, q2, q3⟩ := limit_eq (s := s1) hL hb e2 e4 e5 hs1
  rw [q1] at hf
  have hle : ¬ s1.current.toNat + t.length > o.length.toNat := by
    intro hgt
    rw [if_pos hgt] at hf
    simp at hf
  rw [if_neg hle] at q2
  rw [decide_eq_false hle] at q3
  generalize (limit o.length i s1).2 = st at *
  have hpos : st.current > 0#64 := by
    rw [gt_iff_lt, BitVec.lt_def, q2]
    simp
    omega
  unfold limit
  rw [if_neg hL, if_neg (by simp), if_pos ⟨rfl, hpos, q3⟩]

/-- It is not so otherwise: if the last character is the first of its line, then that line is not ended. -/
theorem phex_finish_counterexample :
    ∃ s, emitAll ⟨4#64, false, false, false⟩ [ch 'a', ch 'a', ch 'a', ch 'a', ch 'a'] {} =
        some ([ch 'a', ch 'a', ch 'a', ch 'a', ch '\n', ch 'a'], s) ∧
      (limit 4#64 0#64 s).1 = [] := ⟨{ current := 1#64, ended := true }, by decide, by decide⟩

/-- If newlines are not escaped then the second of two newlines is lost. -/
theorem phex_newline_counterexample :
    (emitAll ⟨72#64, true, false, false⟩ [ch 'a', ch '\n', ch '\n', ch 'b'] {}).map (·.1) = some [ch 'a', ch '\n', ch 'b'] := by decide

/-- If newlines are not escaped then a line can be ended early, because the column is not set to zero. -/
theorem phex_early_counterexample :
    (emitAll ⟨4#64, true, false, false⟩ [ch 'a', ch 'a', ch 'a', ch '\n', ch 'b', ch 'c'] {}).map (·.1) =
      some [ch 'a', ch 'a', ch 'a', ch '\n', ch 'b', ch '\n', ch 'c'] := by decide

/-- If newlines are not escaped then a line can be longer than the given length, because the column is set to minus one. -/
theorem phex_long_counterexample :
    (emitAll ⟨4#64, true, false, false⟩ [ch '\n', ch '\n', ch 'a', ch 'b', ch 'c', ch 'd', ch 'e'] {}).map (·.1) =
      some [ch '\n', ch '\n', ch 'a', ch 'b', ch 'c', ch 'd', ch 'e'] := by decide

/-- If newlines are not escaped and the length of lines is not limited then they are all lost. -/
theorem phex_unlimited_counterexample :
    (emitAll ⟨0#64, true, false, false⟩ [ch 'a', ch '\n', ch 'b'] {}).map (·.1) = some [ch 'a', ch 'b'] := by decide

/-- The hypotheses hold in a case with several lines and escape sequences of all kinds. -/
example : (emitAll ⟨8#64, false, true, false⟩ [0#8, ch '\n', ch '"', ch 'x', ch '\\', 200#8, ch 'z'] {}).map (·.1) =
    some ([ch '\\', ch '0', ch '\\', ch 'n', ch '\\', ch '"', ch 'x'] ++ [ch '\n', ch '\\', ch '\\', ch '\\', ch 'x', ch 'c', ch '8', ch 'z']) := by
  decide

end Diminuto.Phex
