import Verif.WipeLemmas

/-!
# More lemmas for the tool that wipes a storage device: the loops
-/

namespace Diminuto.Wipe

variable {σ : Type} {d : Device σ} {contents : σ → List Byte} {position : σ → Nat}

/-- Reading a block from an offset on: what has been read are the contents there, and it is short only at the end. -/
theorem readBlock_spec (hr : Readable d contents position) (modulo o : Nat) (g : Got σ) (errors : Nat) (turns : Nat) : ∀ (s : σ) (buffer : List Byte) (size : Nat) (rc : Sign),
    readBlock d modulo turns s buffer size errors rc = .done g → rc = .positive → position s = o + buffer.length → buffer = ((contents s).drop o).take buffer.length →
    contents g.device = contents s ∧
    ((g.errors = errors + 1 ∧ g.rc = .negative) ∨ (g.errors = errors ∧ position g.device = o + g.buffer.length ∧ g.buffer = ((contents s).drop o).take g.buffer.length ∧
      ((g.rc = .positive ∧ g.buffer.length = buffer.length + size) ∨ (g.rc = .zero ∧ (contents s).length ≤ o + g.buffer.length)))) := by
  have base : ∀ (turns : Nat) (s : σ) (buffer : List Byte) (rc : Sign), readBlock d modulo turns s buffer 0 errors rc = .done ⟨rc, s, buffer, errors⟩ := by
    intro t s b rc; cases t <;> rfl
  induction turns with
  | zero =>
    intro s buffer size rc h hrc hp hb
    cases size with
    | zero =>
      rw [base] at h; cases h
      exact ⟨rfl, Or.inr ⟨rfl, hp, hb, Or.inl ⟨hrc, rfl⟩⟩⟩
    | succ n => cases h
  | succ turns ih =>
    intro s buffer size rc h hrc hp hb
    cases size with
    | zero =>
      rw [base] at h; cases h
      exact ⟨rfl, Or.inr ⟨rfl, hp, hb, Or.inl ⟨hrc, rfl⟩⟩⟩
    | succ n =>
      unfold readBlock at h
      simp only [] at h
      rcases hg : d.read s (n + 1) with ⟨_ | l, s'⟩
      · rw [hg] at h
        cases h
        exact ⟨hr.fails _ _ _ hg, Or.inl ⟨rfl, rfl⟩⟩
      · rw [hg] at h
        rcases l with _ | ⟨a, l⟩
        · cases h
          obtain ⟨h1, h2, -, -⟩ := hr.data _ _ _ _ hg
          refine ⟨h1, Or.inr ⟨rfl, ?_, hb, Or.inr ⟨rfl, ?_⟩⟩⟩
          · show position s' = _
            rw [h2, hp]; rfl
          · have := hr.ends _ _ _ hg (by omega)
            show _ ≤ o + buffer.length
            omega
        · simp only [] at h
          split at h
          · cases h
          split at h
          · cases h
          obtain ⟨h1, h2, h3, h4⟩ := hr.data _ _ _ _ hg
          have hbl : buffer ++ a :: l = ((contents s').drop o).take (buffer ++ a :: l).length := by
            rw [List.length_append, List.take_add, h1, ← hb, List.drop_drop, ← hp, ← h4]
          obtain ⟨i1, i2⟩ := ih s' (buffer ++ a :: l) (n + 1 - (a :: l).length) .positive h rfl (by rw [h2, hp, List.length_append]; omega) hbl
          refine ⟨i1.trans h1, ?_⟩
          rcases i2 with i2 | ⟨i2, i3, i4, i5⟩
          · exact Or.inl i2
          · refine Or.inr ⟨i2, i3, by rw [← h1]; exact i4, ?_⟩
            rcases i5 with ⟨i5, i6⟩ | ⟨i5, i6⟩
            · refine Or.inl ⟨i5, ?_⟩
              rw [i6, List.length_append]; omega
            · exact Or.inr ⟨i5, by rw [← h1]; exact i6⟩

/-- Reading everything without an error: the contents from the offset on are the pattern, except for less than a word. -/
theorem readAll_spec (hr : Readable d contents position) (little : Bool) (seed : BitVec 64) (block modulo : Nat) (hb : 0 < block) (h8 : 8 ∣ block) (c : Checked σ) (turns : Nat) :
    ∀ (s : σ) (datum : BitVec 64) (total errors : Nat) (reported : List Nat), readAll d little block modulo turns s datum total errors reported = .done c →
    position s = total → 8 ∣ total → total ≤ (contents s).length → datum.toNat = word seed (total / 8) →
    contents c.device = contents s ∧ errors ≤ c.errors ∧
    (c.errors = 0 → c.total = (contents s).length ∧ c.reported = reported ∧ From little seed total (((contents s).drop total).take (8 * (((contents s).length - total) / 8)))) := by
  induction turns with
  | zero => intro s datum total errors reported h; cases h
  | succ turns ih =>
    intro s datum total errors reported h hp ht hle hd
    unfold readAll at h
    rcases hg : readBlock d modulo block s [] block errors .positive with g | _ | _
    · rw [hg] at h
      simp only [] at h
      obtain ⟨g1, g2⟩ := readBlock_spec hr modulo total g errors block s [] block .positive hg rfl (by rw [hp]; rfl) (by simp)
      have herr : errors ≤ g.errors := by rcases g2 with ⟨g2, -⟩ | ⟨g2, -⟩ <;> omega
      by_cases h0 : g.buffer.length = 0
      · rw [if_pos h0] at h
        cases h
        refine ⟨g1, herr, ?_⟩
        intro he
        simp only [] at he
        rcases g2 with g2 | ⟨g2, g3, g4, g5⟩
        · omega
        · rcases g5 with ⟨-, g6⟩ | ⟨-, g6⟩
          · simp only [List.length_nil] at g6; omega
          · have : (contents s).length = total := by omega
            refine ⟨this.symm, rfl, ?_⟩
            rw [show (contents s).length - total = 0 by omega]
            simpa using from_nil
      · rw [if_neg h0] at h
        rcases hv : verify little (total + g.buffer.length) g.buffer.length (g.buffer.length / 8) g.buffer datum with ⟨more, datum'⟩
        rw [hv] at h
        simp only [] at h
        obtain ⟨v1, v2⟩ := verify_spec little seed (total + g.buffer.length) g.buffer.length (g.buffer.length / 8) (total / 8) g.buffer datum hd (by omega)
        rw [hv] at v1 v2
        simp only [] at v1 v2
        by_cases hpos : g.rc = .positive
        · rw [if_pos hpos] at h
          rcases g2 with g2 | ⟨g2, g3, g4, g5⟩
          · rw [g2.2] at hpos; cases hpos
          · rcases g5 with ⟨-, g6⟩ | ⟨g5, -⟩
            · simp only [List.length_nil, Nat.zero_add] at g6
              have hlen : total + g.buffer.length ≤ (contents s).length := by
                have := congrArg List.length g4
                rw [List.length_take, List.length_drop] at this
                omega
              have hd8 : 8 ∣ g.buffer.length := by rw [g6]; exact h8
              obtain ⟨i1, i2, i3⟩ := ih g.device datum' (total + g.buffer.length) (g.errors + more.length) (reported ++ more) h g3 (Nat.dvd_add ht hd8) (by rw [g1]; exact hlen)
                (by rw [v2]; congr 1; omega)
              refine ⟨i1.trans g1, by omega, ?_⟩
              intro he
              obtain ⟨j1, j2, j3⟩ := i3 he
              have hm : more = [] := List.eq_nil_of_length_eq_zero (by omega)
              subst hm
              rw [g1] at j1 j3
              refine ⟨j1, by rw [j2]; simp, ?_⟩
              have hf := v1.mp rfl
              rw [show 8 * (total / 8) = total by omega] at hf
              have e1 : 8 * (((contents s).length - total) / 8) = g.buffer.length + 8 * (((contents s).length - (total + g.buffer.length)) / 8) := by omega
              rw [e1, List.take_add, List.drop_drop, ← g4]
              apply from_append
              · rw [List.take_of_length_le (by omega)] at hf; exact hf
              · exact j3
            · rw [g5] at hpos; cases hpos
        · rw [if_neg hpos] at h
          cases h
          refine ⟨g1, by simp only []; omega, ?_⟩
          intro he
          simp only [] at he
          rcases g2 with g2 | ⟨g2, g3, g4, g5⟩
          · omega
          · rcases g5 with ⟨g5, -⟩ | ⟨-, g6⟩
            · exact absurd g5 hpos
            · have hlen : total + g.buffer.length ≤ (contents s).length := by
                have := congrArg List.length g4
                rw [List.length_take, List.length_drop] at this
                omega
              have hm : more = [] := List.eq_nil_of_length_eq_zero (by omega)
              subst hm
              refine ⟨by simp only []; omega, by simp, ?_⟩
              have hf := v1.mp rfl
              rw [show 8 * (total / 8) = total by omega] at hf
              rw [show (contents s).length - total = g.buffer.length by omega]
              have e : ∀ m, m ≤ g.buffer.length → g.buffer.take m = ((contents s).drop total).take m := by
                intro m hm
                have := congrArg (List.take m) g4
                rwa [List.take_take, Nat.min_eq_left hm] at this
              rwa [e _ (by omega)] at hf
    · rw [hg] at h; cases h
    · rw [hg] at h; cases h

theorem round_dvd (x m : Nat) : m ∣ round x m := Nat.dvd_mul_left _ _

end Diminuto.Wipe
