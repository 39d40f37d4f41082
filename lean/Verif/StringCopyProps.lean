import Verif.StringCopy

/-!
# Property C16: the bounded string copy
-/

namespace Diminuto.StringCopy

/-- C16: with a destination of at least `n > 0` bytes and a source that is
terminated or has at least `n - 1` bytes, the copy is defined; the destination
holds the longest prefix of the source string that fits, then a NUL, and every
byte after the NUL keeps its value. -/
theorem string_copy_bounded (n : Nat) (dest src : List Byte) (hn : 0 < n) (hd : n ≤ dest.length)
    (hs : 0#8 ∈ src ∨ n - 1 ≤ src.length) :
    ∃ p, p = (src.takeWhile (· ≠ 0#8)).take (n - 1) ∧
      copy n dest src = some (p ++ [0#8] ++ dest.drop (p.length + 1)) := by
  refine ⟨_, rfl, ?_⟩
  induction n generalizing dest src with
  | zero => omega
  | succ n ih =>
    match dest with
    | [] => simp at hd
    | b :: rest =>
      cases n with
      | zero => simp [copy, store]
      | succ n =>
        match src with
        | [] => simp at hs
        | c :: src =>
          by_cases hc : c = 0#8
          · simp [copy, store, hc]
          · have ih' := ih rest src (by omega) (by simpa using hd) (by
              rcases hs with h | h
              · left
                rcases List.mem_cons.mp h with h | h
                · exact absurd h.symm hc
                · exact h
              · right; simp at h; omega)
            simp only [copy, hc, if_false, ih', Option.map_some]
            simp [hc]

/-- With a size of zero nothing is touched. -/
theorem string_copy_zero (dest src : List Byte) : copy 0 dest src = some dest := rfl

/-- A truncated copy: "abc" into four bytes of which three may be used. -/
example : copy 3 [9#8, 9#8, 9#8, 9#8] [0x61#8, 0x62#8, 0x63#8, 0#8] =
    some [0x61#8, 0x62#8, 0#8, 9#8] := by decide +kernel

end Diminuto.StringCopy
