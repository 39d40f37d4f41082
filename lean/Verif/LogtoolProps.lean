import Verif.LogtoolLemmas

/-!
# Properties of the tool that logs its arguments or its standard input

The claims: (1) the tool logs each of its arguments that is not empty, in order and once, at the level that has been asked for last, or as a notice, exactly if the mask wants that level or unless told to ignore the mask; (2) the standard input is
read if there are no messages among the arguments and unless told otherwise; (3) every line of it is logged as a message.

(1) is false without a level: the mask is looked at for six levels while the message is a notice, `logtool_level_counterexample`.  (2) is false if the level is masked, `logtool_input_counterexample`: the tool waits for input although it has been
given messages.  (3) is false for lines with zero bytes, for lines longer than the buffer, and with a buffer of one byte, with which the tool never ends, `logtool_lines_counterexample`; that the reading fails is not noticed, `logtool_failure_counterexample`.
-/

namespace Diminuto.Logtool

/-- C155: what is logged of the arguments, and that the standard input is left alone then.  A level has to be given for the claim as it is. -/
theorem logtool_arguments_partial (mask : BitVec 32) (opts : List Option') (hu : .usage ∉ opts) (args : List (List Byte)) (hm : messages args ≠ []) (memory : Bool) (stdin : List (Option Byte)) (turns : Nat) (hl : Logs mask opts) :
    main mask opts args memory stdin turns = .exit 0 ((messages args).map fun a => ⟨priority opts, a ++ [10#8]⟩) false := by
  rw [main_eq mask opts hu]
  have he : enabled (after initial opts) mask = true := (enabled_after mask opts).mpr hl
  simp only [he, if_true]
  by_cases hs : .suppress ∈ opts
  · rw [if_pos hs]
  · rw [if_neg hs, if_pos (by rw [List.length_map]; exact List.length_pos_iff.mpr hm)]

example : main 0x08 [.level 3, .level 4] [[97], [], [98, 32, 99]] true [some 120] 0 = .exit 0 [⟨4, [97, 10]⟩, ⟨4, [98, 32, 99, 10]⟩] false :=
  logtool_arguments_partial 0x08 [.level 3, .level 4] (by decide) [[97], [], [98, 32, 99]] (by decide) true [some 120] 0 (Or.inr (by show Wanted 0x08 4; unfold Wanted; decide))

/-- C155: without the standard input nothing else is logged, and nothing at all if the level is masked. -/
theorem logtool_suppressed (mask : BitVec 32) (opts : List Option') (hu : .usage ∉ opts) (hs : .suppress ∈ opts) (args : List (List Byte)) (memory : Bool) (stdin : List (Option Byte)) (turns : Nat) :
    (Logs mask opts → main mask opts args memory stdin turns = .exit 0 ((messages args).map fun a => ⟨priority opts, a ++ [10#8]⟩) false) ∧
    (¬ Logs mask opts → main mask opts args memory stdin turns = .exit 0 [] false) := by
  rw [main_eq mask opts hu]
  simp only []
  rw [if_pos hs]
  constructor
  · intro hl
    rw [if_pos ((enabled_after mask opts).mpr hl)]
  · intro hl
    rw [if_neg (fun h => hl ((enabled_after mask opts).mp h))]

example : main 0xfc [.suppress, .level 7] [[97]] true [some 120] 0 = .exit 0 [] false :=
  (logtool_suppressed 0xfc [.suppress, .level 7] (by decide) (by decide) [[97]] true [some 120] 0).2 (by
    rintro (h | h)
    · simp at h
    · have : Wanted 0xfc 7 := h
      unfold Wanted at this
      exact absurd this (by decide))

/-- C155: the standard input, if nothing of the arguments has been logged.  What is read is logged in pieces that end with the end of a line or are as long as the buffer allows, and up to the first zero byte of each; it is read to its end even if nothing is logged.  The
buffer has to have two bytes and fewer than two thousand million, and the reading must not fail. -/
theorem logtool_input_partial (mask : BitVec 32) (opts : List Option') (hu : .usage ∉ opts) (hs : .suppress ∉ opts) (args : List (List Byte)) (hm : messages args = [] ∨ ¬ Logs mask opts) (bs : List Byte)
    (h2 : 2 ≤ (size opts).toNat) (h31 : (size opts).toNat < 2 ^ 31) (turns : Nat) (ht : bs.length < turns) :
    ∃ ps, Pieces ((size opts).toNat - 1) bs ps ∧ (∀ qs, Pieces ((size opts).toNat - 1) bs qs → qs = ps) ∧
      (Logs mask opts → main mask opts args true (bs.map some) turns = .exit 0 (ps.map fun p => ⟨priority opts, p.takeWhile (· ≠ 0)⟩) true) ∧
      (¬ Logs mask opts → main mask opts args true (bs.map some) turns = .exit 0 [] true) := by
  have hlog : (if enabled (after initial opts) mask then (messages args).map fun a => (⟨priority opts, a ++ [10#8]⟩ : Message) else []) = [] := by
    rcases hm with h | h
    · rw [h]; simp
    · rw [if_neg (fun h' => h ((enabled_after mask opts).mp h'))]
  have hlen : (after initial opts).length = size opts := rfl
  obtain ⟨ps, p1, p2⟩ := lines_pieces (after initial opts) mask (by rw [hlen]; exact h2) (by rw [hlen]; exact h31) turns bs ⟨bs.map some, false, false⟩ [] rfl (by simp) rfl ht
  rw [hlen] at p1
  have hmain : main mask opts args true (bs.map some) turns = lines (after initial opts) mask turns ⟨bs.map some, false, false⟩ [] := by
    rw [main_eq mask opts hu]
    simp only [hlog]
    rw [if_neg hs, if_neg (by simp), if_neg (by simp)]
  refine ⟨ps, p1, fun qs hq => (pieces_unique p1 qs hq).symm, ?_, ?_⟩
  · intro hl
    rw [hmain, p2, if_pos ((enabled_after mask opts).mpr hl), priority_after, List.nil_append]
    rfl
  · intro hl
    rw [hmain, p2, if_neg (fun h => hl ((enabled_after mask opts).mp h))]
    rfl

example : main 0xff [.size 3, .level 6] [[]] true ([97, 98, 99, 10, 10, 100].map some) 7 = .exit 0 [⟨6, [97, 98]⟩, ⟨6, [99, 10]⟩, ⟨6, [10]⟩, ⟨6, [100]⟩] true := by decide +kernel

/-- C155: every line is a message, as far as that goes: no longer than the buffer, and without zero bytes. -/
theorem logtool_lines_partial (mask : BitVec 32) (opts : List Option') (hu : .usage ∉ opts) (hs : .suppress ∉ opts) (hl : Logs mask opts) (ls : List (List Byte)) (hls : Lines ls)
    (hz : ∀ l ∈ ls, 0#8 ∉ l) (h2 : 2 ≤ (size opts).toNat) (h31 : (size opts).toNat < 2 ^ 31) (hfit : ∀ l ∈ ls, l.length < (size opts).toNat) (turns : Nat) (ht : ls.flatten.length < turns) :
    main mask opts [] true (ls.flatten.map some) turns = .exit 0 (ls.map fun l => ⟨priority opts, l⟩) true := by
  obtain ⟨ps, p1, p2, p3, _⟩ := logtool_input_partial mask opts hu hs [] (Or.inl rfl) ls.flatten h2 h31 turns ht
  rw [p3 hl, ← p2 ls (lines_are_pieces hls fun l h => by have := hfit l h; omega)]
  congr 1
  apply List.map_congr_left
  intro l h
  rw [takeWhile_self l (hz l h)]

example : main 0xfc [] [] true ([[97, 10], [10], [98, 99]].flatten.map some) 6 = .exit 0 [⟨5, [97, 10]⟩, ⟨5, [10]⟩, ⟨5, [98, 99]⟩] true :=
  logtool_lines_partial 0xfc [] (by decide) (by decide) (Or.inr ⟨5, by decide, by unfold Wanted; decide⟩) [[97, 10], [10], [98, 99]]
    (.line [97] _ (by decide) (.line [] _ (by decide) (.last [98, 99] (by decide) (by decide)))) (by decide) (by decide) (by decide) (by decide) 6 (by decide)

/-- C155: without a level the message is a notice, and is logged although notices are not wanted, since emergencies are. -/
theorem logtool_level_counterexample : ¬ ∀ (mask : BitVec 32) (opts : List Option') (args : List (List Byte)), .usage ∉ opts → .suppress ∈ opts → .unconditional ∉ opts → messages args ≠ [] →
    ∀ n log consumed, main mask opts args true [] 0 = .exit n log consumed → ∀ m ∈ log, ∃ l : Fin 8, m.priority = l.val ∧ Wanted mask l := by
  intro h
  obtain ⟨l, h1, h2⟩ := h 0x80 [.suppress] [[97]] (by decide) (by decide) (by decide) (by decide) 0 [⟨5, [97, 10]⟩] false (by decide +kernel) ⟨5, [97, 10]⟩ (by simp)
  have : l = 5 := Fin.ext h1.symm
  subst this
  unfold Wanted at h2
  exact absurd h2 (by decide)

/-- C155: with messages among its arguments, whose level is masked, the tool reads the standard input to its end. -/
theorem logtool_input_counterexample : ¬ ∀ (mask : BitVec 32) (opts : List Option') (args : List (List Byte)) (stdin : List (Option Byte)) (turns : Nat), .usage ∉ opts → messages args ≠ [] →
    ∀ n log consumed, main mask opts args true stdin turns = .exit n log consumed → consumed = false := by
  intro h
  exact absurd (h 0xfc [.level 7] [[97]] [some 98] 5 (by decide) (by decide) 0 [] true (by decide +kernel)) (by decide)

theorem lines_one (c : Config) (mask : BitVec 32) (hc : c.length = 1) (turns : Nat) : ∀ s log, ∃ log', lines c mask turns s log = .running log' := by
  induction turns with
  | zero => intro s log; exact ⟨log, rfl⟩
  | succ turns ih =>
    intro s log
    unfold lines Stdio.fgets
    rw [hc]
    exact ih _ _

/-- C155: with a buffer of one byte the tool never ends; what follows a zero byte in a line is not logged; a line longer than the buffer becomes more than one message. -/
theorem logtool_lines_counterexample :
    (∀ (stdin : List (Option Byte)) (turns : Nat), ∃ log, main 0xfc [.size 1] [] true stdin turns = .running log) ∧
    main 0xfc [] [] true ([97, 0, 98, 10].map some) 5 = .exit 0 [⟨5, [97]⟩] true ∧
    main 0xfc [.size 3] [] true ([97, 98, 99, 10].map some) 5 = .exit 0 [⟨5, [97, 98]⟩, ⟨5, [99, 10]⟩] true := by
  refine ⟨?_, by decide +kernel, by decide +kernel⟩
  intro stdin turns
  rw [main_eq 0xfc [.size 1] (by decide)]
  have : (if enabled (after initial [.size 1]) 0xfc then (messages []).map fun a => (⟨priority [.size 1], a ++ [10#8]⟩ : Message) else []) = [] := by decide
  simp only [this]
  rw [if_neg (by decide), if_neg (by decide), if_neg (by decide)]
  exact lines_one _ _ rfl turns _ _

/-- C155: that the reading fails is not noticed: what has been read of the line is lost, and what follows is not read, with the status of success.  With a buffer of no bytes, too, nothing is logged. -/
theorem logtool_failure_counterexample :
    main 0xfc [] [] true [some 97, none, some 98, some 10] 5 = .exit 0 [] false ∧ main 0xfc [.size 0] [] true [some 97, some 10] 5 = .exit 0 [] false := by
  constructor <;> decide +kernel

/-- C155: with an option that is not known the tool fails, logs nothing and reads nothing. -/
theorem logtool_refuses (mask : BitVec 32) (opts : List Option') (hu : .usage ∈ opts) (args : List (List Byte)) (memory : Bool) (stdin : List (Option Byte)) (turns : Nat) :
    main mask opts args memory stdin turns = .exit 1 [] false := by
  unfold main
  rw [options_eq, if_pos hu]

example : main 0xff [.level 3, .usage] [[97]] true [some 120] 0 = .exit 1 [] false := logtool_refuses 0xff [.level 3, .usage] (by decide) [[97]] true [some 120] 0

end Diminuto.Logtool
