import Verif.CollapsetoolSpec
import Verif.EscapeGrammarProps

/-!
# Lemmas: collapsing in place
-/

namespace Diminuto.Collapsetool

open Escape

/-- The memory after bytes have been stored, and their number. -/
def after (mem : List Byte) (tt : Nat) (out : List Byte) : List Byte × Nat := (mem.take tt ++ out ++ mem.drop (tt + out.length), tt + out.length)

theorem after_cons (mem : List Byte) (tt : Nat) (b : Byte) (out : List Byte) (h : tt < mem.length) : after (mem.set tt b) (tt + 1) out = after mem tt (b :: out) := by
  unfold after
  have e1 : (mem.set tt b).take (tt + 1) = mem.take tt ++ [b] := by
    rw [List.take_succ]
    rw [List.getElem?_set_self h]
    rw [List.take_set_of_le (Nat.le_refl _)]
    rfl
  have e2 : (mem.set tt b).drop (tt + 1 + out.length) = mem.drop (tt + 1 + out.length) := List.drop_set_of_lt (by omega)
  rw [e1, e2, List.length_cons, show tt + (out.length + 1) = tt + 1 + out.length from by omega]
  simp

theorem ending_after (mem : List Byte) (tt tsize : Nat) (h : tt < mem.length) : ending mem tt tsize = some (after mem tt (finish tsize)) := by
  unfold ending finish
  split
  · rename_i h0
    unfold put
    rw [if_pos h]
    simp only [Option.bind_some]
    have := after_cons mem tt 0#8 [] h
    rw [← this]
    unfold after
    simp
  · unfold after
    simp

theorem drop_cons {mem : List Byte} {ff : Nat} {c : Byte} {rest : List Byte} (h : mem.drop ff = c :: rest) : mem[ff]? = some c ∧ mem.drop (ff + 1) = rest ∧ ff < mem.length := by
  have h1 : mem[ff]? = some c := by
    have := congrArg List.head? h
    rwa [List.head?_drop, List.head?_cons] at this
  refine ⟨h1, ?_, (List.getElem?_eq_some_iff.1 h1).1⟩
  have := congrArg (List.drop 1) h
  rwa [List.drop_drop, List.drop_succ_cons, List.drop_zero] at this

/-- The machine that collapses in place stores what the function stores whose target is elsewhere. -/
theorem inplace_collapse : ∀ (fuel : Nat) (mem : List Byte) (ff tt tsize : Nat), tt ≤ ff → mem.length - ff < fuel → 0#8 ∈ mem.drop ff →
    ∃ out, collapse (mem.drop ff) tsize = some out ∧ inplace fuel mem ff tt tsize = some (after mem tt out)
  | 0, _, _, _, _, _, h, _ => by omega
  | fuel + 1, mem, ff, tt, tsize, htt, hf, hz => by
    have emit : ∀ (b : Byte) (ff' : Nat), ff < ff' → tt < mem.length → 0#8 ∈ mem.drop ff' →
        ∃ out, (collapse (mem.drop ff') (tsize - 1)).bind (fun out => some (b :: out)) = some out ∧
          ((put mem tt b).bind fun mem => inplace fuel mem ff' (tt + 1) (tsize - 1)) = some (after mem tt out) := by
      intro b ff' h1 h2 h3
      have hd : (mem.set tt b).drop ff' = mem.drop ff' := List.drop_set_of_lt (by omega)
      have hl : (mem.set tt b).length = mem.length := List.length_set
      have hlt : ff' < mem.length := by
        have : mem.drop ff' ≠ [] := List.ne_nil_of_mem h3
        simpa using this
      obtain ⟨out, g1, g2⟩ := inplace_collapse fuel (mem.set tt b) ff' (tt + 1) (tsize - 1) (by omega) (by omega) (by rw [hd]; exact h3)
      rw [hd] at g1
      refine ⟨b :: out, by rw [g1]; rfl, ?_⟩
      unfold put
      rw [if_pos h2, Option.bind_some, g2, after_cons mem tt b out h2]
    cases hl : mem.drop ff with
    | nil => rw [hl] at hz; simp at hz
    | cons c rest =>
      obtain ⟨e1, e2, e3⟩ := drop_cons hl
      rw [hl] at hz
      unfold inplace
      rw [collapse.eq_def]
      by_cases ht : tsize ≤ 1
      · rw [if_pos ht, if_pos ht]
        exact ⟨_, rfl, ending_after mem tt tsize (by omega)⟩
      rw [if_neg ht, if_neg ht, e1]
      simp only [Option.bind_some]
      by_cases hc0 : c = 0x00#8
      · rw [if_pos hc0, if_pos hc0]
        exact ⟨_, rfl, ending_after mem tt tsize (by omega)⟩
      rw [if_neg hc0, if_neg hc0]
      have hz1 : 0#8 ∈ rest := by
        rcases List.mem_cons.mp hz with h | h
        · exact absurd h.symm hc0
        · exact h
      by_cases hc : c = 0x5c#8
      · rw [if_pos hc, if_pos hc]
        cases rest with
        | nil => simp at hz1
        | cons d rest2 =>
          obtain ⟨f1, f2, f3⟩ := drop_cons e2
          rw [f1]
          simp only [Option.bind_some]
          by_cases hd0 : d = 0x00#8
          · rw [if_pos hd0, if_pos hd0, ← e2]
            exact inplace_collapse fuel mem (ff + 1) tt tsize (by omega) (by omega) (by rw [e2]; exact hz1)
          rw [if_neg hd0, if_neg hd0]
          have hz2 : 0#8 ∈ rest2 := by
            rcases List.mem_cons.mp hz1 with h | h
            · exact absurd h.symm hd0
            · exact h
          have hz2' : 0#8 ∈ mem.drop (ff + 2) := by rw [f2]; exact hz2
          by_cases hn : d = 0x0a#8
          · rw [if_pos hn, if_pos hn, ← f2]
            exact inplace_collapse fuel mem (ff + 2) tt tsize (by omega) (by omega) hz2'
          rw [if_neg hn, if_neg hn]
          by_cases hr : d = 0x0d#8
          · rw [if_pos hr, if_pos hr, ← f2]
            exact inplace_collapse fuel mem (ff + 2) tt tsize (by omega) (by omega) hz2'
          rw [if_neg hr, if_neg hr]
          by_cases hx : d = 0x78#8
          · rw [if_pos hx, if_pos hx]
            obtain ⟨k, b, hd, hk, hdm⟩ := digits_total hexValue 16 (by decide) 2 rest2 hz2 0#8
            rw [show mem.drop (ff + 2) = rest2 from f2, hd]
            simp only [Option.bind_some]
            cases k with
            | zero =>
              simp only [if_true]
              have := emit c (ff + 1) (by omega) (by omega) (by rw [e2]; exact hz1)
              rw [e2] at this
              exact this
            | succ k =>
              simp only [Nat.add_one_ne_zero, if_false]
              have ed : mem.drop (ff + 2 + (k + 1)) = rest2.drop (k + 1) := by rw [← List.drop_drop, f2]
              have := emit b (ff + 2 + (k + 1)) (by omega) (by omega) (by rw [ed]; exact hdm)
              rw [ed] at this
              exact this
          rw [if_neg hx, if_neg hx]
          by_cases ho : (octalValue d).isSome = true
          · rw [if_pos ho, if_pos ho]
            obtain ⟨k, b, hd, hk, hdm⟩ := digits_total octalValue 8 (by decide) 3 (d :: rest2) hz1 0#8
            rw [e2, hd]
            simp only [Option.bind_some]
            cases k with
            | zero =>
              exfalso
              obtain ⟨v, hv⟩ := Option.isSome_iff_exists.1 ho
              simp only [digits, hv] at hd
              cases hdd : digits octalValue 8 2 rest2 (BitVec.ofNat 8 ((0#8).toNat * 8 + v)) with
              | none => rw [hdd] at hd; exact (nomatch hd)
              | some x =>
                rw [hdd] at hd
                simp [bind] at hd
            | succ k =>
              have ed : mem.drop (ff + 1 + (k + 1)) = rest2.drop (k + 1 - 1) := by
                rw [← List.drop_drop, e2, List.drop_succ_cons]; rfl
              have := emit b (ff + 1 + (k + 1)) (by omega) (by omega) (by
                rw [ed]
                rw [List.drop_succ_cons] at hdm
                exact hdm)
              rw [ed] at this
              exact this
          rw [if_neg ho, if_neg ho]
          have := emit (letter d) (ff + 2) (by omega) (by omega) hz2'
          rw [show mem.drop (ff + 2) = rest2 from f2] at this
          exact this
      · rw [if_neg hc, if_neg hc]
        have := emit c (ff + 1) (by omega) (by omega) (by rw [e2]; exact hz1)
        rw [e2] at this
        exact this

theorem denotes_length {s r : List Byte} (h : Denotes s r) : r.length ≤ s.length := by
  induction h <;> simp only [List.length_cons, List.length_nil] at * <;> omega

end Diminuto.Collapsetool
