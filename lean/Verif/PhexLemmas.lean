import Verif.PhexSpec

/-!
# Lemmas: print hexadecimal
-/

namespace Diminuto.Phex

theorem token_length (o : Options) (l : BitVec 64) (c : Byte) : token { o with length := l } c = token o c := rfl

/-- What is so for every token. -/
def Good (c : Byte) (t : BitVec 64 × List Byte) : Bool :=
  read .plain t.2 == (.plain, [c]) && !(t.2.contains (ch '\n')) && t.1.toNat == t.2.length && (width t.2 == t.2.length) &&
    decide (1 ≤ t.2.length) && decide (t.2.length ≤ 4) && t.2.all (fun b => decide (32#8 ≤ b) && decide (b ≤ 126#8))

theorem token_table : ∀ (n : Fin 256) (nl esc hex : Bool),
    (BitVec.ofFin n = ch '\n' ∧ nl = true ∧ token ⟨0#64, nl, esc, hex⟩ (BitVec.ofFin n) = some (-1#64, [])) ∨
    (¬ (BitVec.ofFin n = ch '\n' ∧ nl = true) ∧
      (token ⟨0#64, nl, esc, hex⟩ (BitVec.ofFin n)).any (Good (BitVec.ofFin n)) = true) := by
  decide +kernel

theorem token_newline (o : Options) (h : o.nl = true) : token o (ch '\n') = some (-1#64, []) := by
  obtain ⟨l, nl, esc, hex⟩ := o
  have := token_table 10 nl esc hex
  simp only [] at h
  subst h
  rcases this with ⟨-, -, h⟩ | ⟨h, -⟩
  · exact h
  · exact absurd ⟨rfl, rfl⟩ h

theorem token_good (o : Options) (c : Byte) (h : ¬ (c = ch '\n' ∧ o.nl = true)) :
    ∃ i t, token o c = some (i, t) ∧ read .plain t = (.plain, [c]) ∧ ch '\n' ∉ t ∧ i.toNat = t.length ∧ width t = t.length ∧
      1 ≤ t.length ∧ t.length ≤ 4 ∧ ∀ b ∈ t, 32#8 ≤ b ∧ b ≤ 126#8 := by
  obtain ⟨l, nl, esc, hex⟩ := o
  have := token_table c.toFin nl esc hex
  rcases this with ⟨h1, h2, -⟩ | ⟨-, h2⟩
  · exact absurd ⟨h1, h2⟩ h
  · have e : token ⟨l, nl, esc, hex⟩ c = token ⟨0#64, nl, esc, hex⟩ (BitVec.ofFin c.toFin) := rfl
    rw [e]
    cases ht : token ⟨0#64, nl, esc, hex⟩ (BitVec.ofFin c.toFin) with
    | none => rw [ht] at h2; simp at h2
    | some t =>
      rw [ht] at h2
      simp only [Option.any_some, Good, Bool.and_eq_true, beq_iff_eq, Bool.not_eq_true', List.contains_eq_mem, decide_eq_false_iff_not,
        decide_eq_true_eq, List.all_eq_true] at h2
      obtain ⟨⟨⟨⟨⟨⟨a, b⟩, d⟩, e⟩, f⟩, g⟩, k⟩ := h2
      exact ⟨t.1, t.2, rfl, a, b, d, e, f, g, k⟩

theorem read_append (r : Reader) (a b : List Byte) :
    read r (a ++ b) = ((read (read r a).1 b).1, (read r a).2 ++ (read (read r a).1 b).2) := by
  induction a generalizing r with
  | nil => simp [read]
  | cons c a ih => simp [read, ih]

theorem limit_out (length increment : BitVec 64) (s : State) :
    (limit length increment s).1 = [] ∨ (limit length increment s).1 = [ch '\n'] := by
  unfold limit
  simp only []
  repeat' split
  all_goals simp

theorem read_limit (length increment : BitVec 64) (s : State) : read .plain (limit length increment s).1 = (.plain, []) := by
  rcases limit_out length increment s with h | h <;> rw [h] <;> rfl

/-- Tokens broken into lines. -/
def wrap (L : Nat) : Nat → List (List Byte) → List Byte
  | _, [] => []
  | col, t :: ts => if col + t.length > L then ch '\n' :: t ++ wrap L t.length ts else t ++ wrap L (col + t.length) ts

/-- What is so for every printed character. -/
def Fine (t : List Byte) : Prop := ch '\n' ∉ t ∧ width t = t.length ∧ 1 ≤ t.length ∧ t.length ≤ 4 ∧ (read .plain t).1 = .plain

theorem limit_eq {L i : BitVec 64} {s : State} {n : Nat} (hL : L ≠ 0#64) (hb : L.toNat + 4 < 2 ^ 64) (hi : i.toNat = n) (h1 : 1 ≤ n) (h4 : n ≤ 4)
    (hs : s.current.toNat ≤ max L.toNat 4) :
    (limit L i s).1 = (if s.current.toNat + n > L.toNat then [ch '\n'] else []) ∧
    (limit L i s).2.current.toNat = (if s.current.toNat + n > L.toNat then n else s.current.toNat + n) ∧
    (limit L i s).2.ended = decide (s.current.toNat + n > L.toNat) := by
  have hpos : ¬ (i.toInt < 0 ∧ s.ended = false) := by
    rw [BitVec.toInt_eq_toNat_of_lt (by omega)]
    omega
  have hnz : i ≠ 0#64 := by
    rintro rfl
    simp at hi
    omega
  have hadd : (s.current + i).toNat = s.current.toNat + n := by
    rw [BitVec.toNat_add, hi, Nat.mod_eq_of_lt (by omega)]
  unfold limit
  rw [if_neg hL, if_neg hpos, if_neg (by simp [hnz])]
  simp only [gt_iff_lt, BitVec.lt_def, hadd]
  split <;> rename_i h <;> simp [h, hi, hadd]

theorem emitAll_eq (o : Options) (input : List Byte) (hn : ∀ c ∈ input, ¬ (c = ch '\n' ∧ o.nl = true)) (hL : o.length ≠ 0#64)
    (hb : o.length.toNat + 4 < 2 ^ 64) : ∀ s : State, s.current.toNat ≤ max o.length.toNat 4 →
    ∃ ts s', (∀ t ∈ ts, Fine t) ∧ emitAll o input s = some (wrap o.length.toNat s.current.toNat ts, s') := by
  induction input with
  | nil => exact fun s _ => ⟨[], s, by simp, rfl⟩
  | cons c cs ih =>
    intro s hs
    obtain ⟨i, t, ht, h0, h1, h2, h3, h4, h5, -⟩ := token_good o c (hn c (by simp))
    obtain ⟨e1, e2, e3⟩ := limit_eq (s := s) hL hb h2 h4 h5 hs
    obtain ⟨ts, s', hf, e⟩ := ih (fun x hx => hn x (by simp [hx])) (limit o.length i s).2 (by rw [e2]; split <;> omega)
    refine ⟨t :: ts, s', ?_, ?_⟩
    · intro x hx
      rcases List.mem_cons.mp hx with rfl | hx
      · exact ⟨h1, h3, h4, h5, by rw [h0]⟩
      · exact hf x hx
    · simp only [emitAll, emit, ht, Option.map_some, Option.bind_some, e, e1, e2, wrap]
      split <;> simp

theorem column_append (col : Nat) (a b : List Byte) : column col (a ++ b) = column (column col a) b := by
  simp [column]

theorem column_noNewline {t : List Byte} (h : ch '\n' ∉ t) (col : Nat) : column col t = col + t.length := by
  induction t generalizing col with
  | nil => rfl
  | cons b t ih =>
    simp only [List.mem_cons, not_or] at h
    have : column col (b :: t) = column (col + 1) t := by
      simp only [column, List.foldl_cons]
      rw [if_neg (fun e => h.1 e.symm)]
    rw [this, ih h.2, List.length_cons]
    omega

theorem wrap_bound (L : Nat) (ts : List (List Byte)) (hf : ∀ t ∈ ts, Fine t) : ∀ col, col ≤ max L 4 → ∀ n,
    column col ((wrap L col ts).take n) ≤ max L 4 := by
  induction ts with
  | nil => intro col h n; simpa [wrap, column] using h
  | cons t ts ih =>
    intro col h n
    have ht := hf t (by simp)
    have hk : ∀ k, ch '\n' ∉ t.take k := fun k hk => ht.1 (List.mem_of_mem_take hk)
    have ih := ih (fun x hx => hf x (by simp [hx]))
    unfold wrap
    split
    · cases n with
      | zero => simpa [column] using h
      | succ n =>
        rw [List.cons_append, List.take_succ_cons]
        have : ∀ l, column col (ch '\n' :: l) = column 0 l := fun l => by simp [column]
        rw [this, List.take_append, column_append, column_noNewline (hk n)]
        by_cases hn : n ≤ t.length
        · rw [Nat.sub_eq_zero_of_le hn]
          simp only [List.take_zero, column, List.foldl_nil, List.length_take]
          have := ht.2.2.2.1
          omega
        · have e : 0 + (t.take n).length = t.length := by
            rw [List.length_take]
            omega
          rw [e]
          have := ht.2.2.2.1
          exact ih _ (by omega) _
    · rename_i hle
      rw [List.take_append, column_append, column_noNewline (hk n)]
      by_cases hn : n ≤ t.length
      · rw [Nat.sub_eq_zero_of_le hn]
        simp only [List.take_zero, column, List.foldl_nil, List.length_take]
        omega
      · have e : (t.take n).length = t.length := by
          rw [List.length_take]
          omega
        rw [e]
        exact ih _ (by omega) _

theorem width_append {t l : List Byte} (h : Fine t) : width (t ++ l) = t.length := by
  obtain ⟨h1, h2, h3, h4, h5⟩ := h
  match t, h2, h3 with
  | [a], h2, _ =>
    simp only [List.cons_append, List.nil_append, List.length_cons, List.length_nil]
    cases l with
    | nil => rfl
    | cons b l =>
      have : a ≠ ch '\\' := by
        rintro rfl
        exact absurd h5 (by decide)
      simp [width, this]
  | a :: b :: t, h2, _ => exact h2

theorem split_newline {t W p q : List Byte} (h : ch '\n' ∉ t) (e : t ++ W = p ++ ch '\n' :: q) : ∃ p', p = t ++ p' ∧ W = p' ++ ch '\n' :: q := by
  rcases List.append_eq_append_iff.mp e with ⟨a, h1, h2⟩ | ⟨c, h1, h2⟩
  · exact ⟨a, h1, h2⟩
  · cases c with
    | nil => exact ⟨[], by simpa using h1.symm, by simpa using h2.symm⟩
    | cons x c =>
      simp only [List.cons_append, List.cons.injEq] at h2
      exact absurd (by rw [h1, ← h2.1]; simp) h

theorem wrap_break (L : Nat) (ts : List (List Byte)) (hf : ∀ t ∈ ts, Fine t) : ∀ col p q,
    wrap L col ts = p ++ ch '\n' :: q → column col p + width q > L := by
  induction ts with
  | nil => intro col p q h; simp [wrap] at h
  | cons t ts ih =>
    intro col p q h
    have ht := hf t (by simp)
    have ih := ih (fun x hx => hf x (by simp [hx]))
    unfold wrap at h
    split at h
    · cases p with
      | nil =>
        simp only [List.nil_append, List.cons_append, List.cons.injEq, true_and] at h
        rw [← h, width_append ht]
        simpa [column]
      | cons x p =>
        simp only [List.cons_append, List.cons.injEq] at h
        obtain ⟨rfl, h⟩ := h
        obtain ⟨p', rfl, e⟩ := split_newline ht.1 h
        have : ∀ l, column col (ch '\n' :: l) = column 0 l := fun l => by simp [column]
        rw [this, column_append, column_noNewline ht.1, Nat.zero_add]
        exact ih _ _ _ e
    · obtain ⟨p', rfl, e⟩ := split_newline ht.1 h
      rw [column_append, column_noNewline ht.1]
      exact ih _ _ _ e

end Diminuto.Phex
