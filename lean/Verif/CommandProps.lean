import Verif.Command

/-!
# Property C48: command line reconstruction
-/

namespace Diminuto.Command

/-- The argument vector `args` with its null terminator (and anything after). -/
def vector (args : List (List Byte)) (junk : List (Option (List Byte))) : List (Option (List Byte)) :=
  args.map some ++ none :: junk

/-- The words joined by single blanks. -/
def joined (args : List (List Byte)) : List Byte := List.intercalate [0x20#8] args

/-- The arguments after the first, each preceded by a blank. -/
def tailed (args : List (List Byte)) : List Byte := args.flatMap fun a => 0x20#8 :: a

theorem joined_cons (a : List Byte) (args : List (List Byte)) : joined (a :: args) = a ++ tailed args := by
  induction args generalizing a with
  | nil => simp [joined, tailed, List.intercalate]
  | cons b args ih =>
    have := ih b
    simp only [joined, List.intercalate, List.intersperse, List.flatten_cons] at this ⊢
    simp only [tailed, List.flatMap_cons] at this ⊢
    rw [this]; simp

theorem lengthLoop_tail (argc : Nat) (args : List (List Byte)) (junk) (h : args.length ≤ argc)
    (index total : Nat) (hi : 0 < index) :
    lengthLoop argc index (vector args junk) total = some (total + (tailed args).length) := by
  induction args generalizing argc index total with
  | nil =>
    cases argc with
    | zero => simp [lengthLoop, tailed]
    | succ n => simp [vector, lengthLoop, tailed]
  | cons a args ih =>
    cases argc with
    | zero => simp at h
    | succ n =>
      have := ih n (by simpa using h) (index + 1) (total + 1 + a.length) (by omega)
      simp only [vector, List.map_cons, List.cons_append, lengthLoop] at this ⊢
      rw [if_pos hi, this]
      simp [tailed]; omega

/-- C48: the length function gives the length of the joined words plus one. -/
theorem command_length_exact (args : List (List Byte)) (junk) (argc : Nat) (h : args.length ≤ argc) :
    commandLength argc (vector args junk) = some ((joined args).length + 1) := by
  unfold commandLength
  cases args with
  | nil =>
    cases argc with
    | zero => simp [lengthLoop, joined]
    | succ n => simp [vector, lengthLoop, joined]
  | cons a args =>
    cases argc with
    | zero => simp at h
    | succ n =>
      have := lengthLoop_tail n args junk (by simpa using h) 1 (0 + a.length) (by omega)
      simp only [vector, List.map_cons, List.cons_append, lengthLoop] at this ⊢
      rw [if_neg (by omega), this, joined_cons]
      simp

/-- What the loop stores after the first argument. -/
theorem lineLoop_tail (argc : Nat) (args : List (List Byte)) (junk) (h : args.length ≤ argc)
    (index limit : Nat) (hi : 0 < index) :
    ∃ out, lineLoop argc index (vector args junk) limit = some out ∧ out.length ≤ limit ∧
      ((tailed args).length ≤ limit → out = tailed args) ∧
      ∃ k, k ≤ args.length ∧ (out = tailed (args.take k) ∨
        (k < args.length ∧ out = tailed (args.take k) ++ [0x20#8])) := by
  induction args generalizing argc index limit with
  | nil =>
    refine ⟨[], ?_, by simp, fun _ => rfl, 0, by simp, Or.inl rfl⟩
    cases argc with
    | zero => simp [lineLoop]
    | succ n => simp [vector, lineLoop]
  | cons a args ih =>
    cases argc with
    | zero => simp at h
    | succ n =>
      simp only [vector, List.map_cons, List.cons_append, lineLoop]
      rw [if_neg (by omega)]
      have htl : (tailed (a :: args)).length = 1 + a.length + (tailed args).length := by
        simp [tailed]; omega
      by_cases h1 : 1 > limit
      · rw [if_pos h1]
        exact ⟨[], rfl, by simp, fun h' => by omega, 0, by simp, Or.inl rfl⟩
      · rw [if_neg h1]
        by_cases h2 : a.length > limit - 1
        · rw [if_pos h2]
          exact ⟨[0x20#8], rfl, by simp; omega, fun h' => by omega, 0, by simp,
            Or.inr ⟨by simp, rfl⟩⟩
        · rw [if_neg h2]
          obtain ⟨out, ho, hl, he, k, hk, hp⟩ :=
            ih n (by simpa using h) (index + 1) (limit - 1 - a.length) (by omega)
          unfold vector at ho
          refine ⟨[0x20#8] ++ a ++ out, by rw [ho]; rfl, by simp; omega, ?_, k + 1, by simpa using hk, ?_⟩
          · intro h'
            rw [he (by omega)]
            simp [tailed]
          · rcases hp with hp | ⟨hk', hp⟩
            · left; rw [hp]; simp [tailed]
            · right; exact ⟨by simpa using hk', by rw [hp]; simp [tailed]⟩

/-- C48: for every argument vector and buffer size the function stores at most
`size` bytes, the last of them a NUL (if there is room for anything); it stores
exactly the joined words whenever the size is at least the length function's
result; and otherwise it stores the first `k` words whole, joined, possibly
followed by one separating blank. -/
theorem command_line_bounded_exact (args : List (List Byte)) (junk) (argc : Nat)
    (h : args.length ≤ argc) (size : Nat) (hs : 0 < size) :
    ∃ text, commandLine argc (vector args junk) size = some (text ++ [0#8]) ∧
      text.length + 1 ≤ size ∧
      ((joined args).length + 1 ≤ size → text = joined args) ∧
      ∃ k, k ≤ args.length ∧ (text = joined (args.take k) ∨
        (k < args.length ∧ text = joined (args.take k) ++ [0x20#8])) := by
  unfold commandLine
  rw [if_pos hs]
  cases args with
  | nil =>
    refine ⟨[], ?_, by simp; omega, fun _ => rfl, 0, by simp, Or.inl rfl⟩
    cases argc with
    | zero => simp [lineLoop]
    | succ n => simp [vector, lineLoop]
  | cons a args =>
    cases argc with
    | zero => simp at h
    | succ n =>
      simp only [vector, List.map_cons, List.cons_append, lineLoop, if_true]
      by_cases h1 : a.length > size - 1
      · rw [if_pos h1]
        refine ⟨[], rfl, by simp; omega, fun h' => ?_, 0, by simp, Or.inl rfl⟩
        rw [joined_cons] at h'
        simp at h'; omega
      · rw [if_neg h1]
        obtain ⟨out, ho, hl, he, k, hk, hp⟩ :=
          lineLoop_tail n args junk (by simpa using h) 1 (size - 1 - a.length) (by omega)
        unfold vector at ho
        refine ⟨a ++ out, by rw [ho]; rfl, by simp; omega, ?_, k + 1, by simpa using hk, ?_⟩
        · intro h'
          rw [joined_cons] at h' ⊢
          simp at h'
          rw [he (by omega)]
        · rw [List.take_succ_cons, joined_cons]
          rcases hp with hp | ⟨hk', hp⟩
          · left; rw [hp]
          · right; exact ⟨by simpa using hk', by rw [hp]; simp⟩

/-- With a size of zero nothing is stored. -/
theorem command_line_zero (argc : Nat) (argv) : commandLine argc argv 0 = some [] := rfl

/-- Two words that fit exactly, and the same with one byte less: the blank stays. -/
example : commandLine 2 (vector [[0x61#8], [0x62#8]] []) 4 = some [0x61#8, 0x20#8, 0x62#8, 0#8] ∧
    commandLine 2 (vector [[0x61#8], [0x62#8]] []) 3 = some [0x61#8, 0x20#8, 0#8] := by
  decide +kernel

end Diminuto.Command
