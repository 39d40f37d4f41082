import Verif.PhextoolLemmas
import Verif.CollapsetoolProps

/-!
# Property C175: what the tool prints in hexadecimal is read back as its input, by a reader and by the tool that collapses
-/

namespace Diminuto.Phextool

open Phex

/-- C175: the first option that ends the program ends it, printing nothing, and otherwise the variables are what the options say. -/
theorem options_say (opts : List Opt) :
    (∃ c, options {} opts = .ok c ∧ Says opts c ∧ ∀ o ∈ opts, ∀ n, ¬ Ends o n) ∨
      (∃ b o a n, opts = b ++ o :: a ∧ Ends o n ∧ (∀ o ∈ b, ∀ n, ¬ Ends o n) ∧ ∀ input, main opts input = some ⟨n, [], []⟩) := by
  rcases options_from opts [] {} says_start with h | ⟨x, o, a, n, h1, h2, h3, h4⟩
  · exact .inl (by simpa using h)
  · refine .inr ⟨x, o, a, n, h1, h2, h3, fun input => ?_⟩
    unfold main
    rw [h4]

theorem prints_reads (c : Config) (input : List Byte) : ∃ out, prints c input = some out ∧
    read .plain out = (.plain, if c.nl then input.filter (fun b => b ≠ ch '\n') else input) ∧ ∀ b ∈ out, b = ch '\n' ∨ (32#8 ≤ b ∧ b ≤ 126#8) := by
  obtain ⟨out, s', e, h⟩ := phex_reads_back ⟨c.length, c.nl, c.esc, c.hex⟩ input {}
  refine ⟨out ++ (limit c.length 0#64 s').1, by unfold prints; rw [e]; rfl, ?_, ?_⟩
  · rw [read_append, h]
    simp only []
    rw [read_limit]
    simp
  · intro b hb
    rcases List.mem_append.1 hb with hb | hb
    · exact phex_printable _ input {} out s' e b hb
    · rcases limit_out c.length 0#64 s' with e | e <;> rw [e] at hb
      · exact (nomatch hb)
      · left; simpa using hb

/-- C175: unless an option ends the program, its status is zero, it prints only printable characters and newlines, and what it prints is read back as the input, without its newlines if they were to be kept as they are.  With `-t` the input is on the standard output and what is printed is on the standard error. -/
theorem main_reads_back (opts : List Opt) (input : List Byte) (h : ∀ o ∈ opts, ∀ n, ¬ Ends o n) : ∃ out,
    main opts input = some (if .tee ∈ opts then ⟨0, input, out⟩ else ⟨0, out, []⟩) ∧ (∀ b ∈ out, b = ch '\n' ∨ (32#8 ≤ b ∧ b ≤ 126#8)) ∧
    read .plain out = (.plain, if .nl ∈ opts then input.filter (fun b => b ≠ ch '\n') else input) := by
  rcases options_from opts [] {} says_start with ⟨c, h1, h2, -⟩ | ⟨x, o, a, n, h1, h2, -⟩
  · obtain ⟨out, e, hr, hp⟩ := prints_reads c input
    rw [List.nil_append] at h2
    refine ⟨out, ?_, hp, ?_⟩
    · unfold main
      rw [h1]
      simp only [e, Option.map_some]
      by_cases ht : c.tee = true
      · rw [if_pos ht, if_pos (h2.tee.1 ht)]
      · rw [if_neg ht, if_neg (fun hh => ht (h2.tee.2 hh))]
    · rw [hr]
      by_cases ht : c.nl = true
      · rw [if_pos ht, if_pos (h2.nl.1 ht)]
      · rw [if_neg ht, if_neg (fun hh => ht (h2.nl.2 hh))]
  · exact absurd h2 (h o (by rw [h1]; simp) n)

/-- `-n -t` and `a`, a newline, a byte of all ones. -/
example : main [.nl, .tee] [0x61, 0x0a, 0xff] = some ⟨0, [0x61, 0x0a, 0xff], [0x61, 0x0a, 0x5c, 0x78, 0x66, 0x66, 0x0a]⟩ := by decide +kernel

/-- `-l 4x` ends the program with one, and the menu with zero, before `-l` is seen. -/
example : main [.length [0x34, 0x78]] [0x61] = some ⟨1, [], []⟩ ∧ main [.menu, .length [0x34, 0x78]] [0x61] = some ⟨0, [], []⟩ := by decide +kernel

theorem length_zero (opts : List Opt) (c : Config) (h : Says opts c) (t : List Byte) (ht : (opts.filterMap saysLength).getLast? = some t) (hz : Internettool.Sized t 0) : c.length = 0#64 := by
  have hl := h.length
  rw [ht] at hl
  have hl : Internettool.Sized t c.length.toNat := hl
  rw [sized_iff] at hl hz
  apply BitVec.eq_of_toNat_eq
  rw [← hl.2, hz.2]
  rfl

/-- C175, in part: with `-l 0`, without `-n`, and either with `-x` or with no nul before an octal digit, what is printed is a text with escapes that means the input, and nothing else.  The other lengths and `-n` are missing: `lines_counterexample`. -/
theorem main_denotes_partial (opts : List Opt) (input t : List Byte) (h : ∀ o ∈ opts, ∀ n, ¬ Ends o n) (hl : (opts.filterMap saysLength).getLast? = some t) (hz : Internettool.Sized t 0)
    (hn : .nl ∉ opts) (ht : .tee ∉ opts) (hx : .hex ∈ opts ∨ Apart input) : ∃ out,
    main opts input = some ⟨0, out, []⟩ ∧ 0#8 ∉ out ∧ Escape.Denotes out input ∧ ∀ r, Escape.Denotes out r → r = input := by
  rcases options_from opts [] {} says_start with ⟨c, h1, h2, -⟩ | ⟨x, o, a, n, h1, h2, -⟩
  · rw [List.nil_append] at h2
    have hc := length_zero opts c h2 t hl hz
    obtain ⟨out, e, hd, -⟩ := emitAll_denotes ⟨c.length, c.nl, c.esc, c.hex⟩ hc (by
      cases hb : c.nl with
      | false => rfl
      | true => exact absurd (h2.nl.1 hb) hn) input {} (hx.imp_left h2.hex.2)
    have h0 : 0#8 ∉ out := fun h => by
      have := phex_printable _ input {} out {} e 0#8 h
      revert this
      decide
    obtain ⟨r, -, hu, -⟩ := Escape.escape_collapse_exact out h0
    refine ⟨out, ?_, h0, hd, fun r' hr' => by rw [hu r' hr', hu input hd]⟩
    unfold main
    rw [h1]
    simp only [prints, e, Option.map_some]
    rw [if_neg (fun hh => ht (h2.tee.1 hh)), hc, limit_zero, List.append_nil]
  · exact absurd h2 (h o (by rw [h1]; simp) n)

/-- C175, in part: the tool that collapses, given as its only argument what is printed with `-l 0`, writes the input again, if the input does not begin with a nul. -/
theorem phex_collapse_partial (opts : List Opt) (input t : List Byte) (h : ∀ o ∈ opts, ∀ n, ¬ Ends o n) (hl : (opts.filterMap saysLength).getLast? = some t) (hz : Internettool.Sized t 0)
    (hn : .nl ∉ opts) (ht : .tee ∉ opts) (hx : .hex ∈ opts ∨ Apart input) (hi : input.head? ≠ some 0#8) : ∃ out,
    main opts input = some ⟨0, out, []⟩ ∧ Collapsetool.main (fun _ d => d.length) [out] = some (0, input) := by
  obtain ⟨out, e, h0, -, hu⟩ := main_denotes_partial opts input t h hl hz hn ht hx
  refine ⟨out, e, ?_⟩
  obtain ⟨outs, ha, hm⟩ := Collapsetool.main_whole_partial [out] (by simpa using h0)
  rw [hm]
  have hw : ∀ y, Collapsetool.Writes out y → y = input := by
    rintro y ⟨r, hr, rfl⟩
    rw [hu r hr, if_neg hi]
  cases ha with
  | skip hs hr =>
    cases hr
    rw [← hw _ hs]; rfl
  | cons hs hne hr =>
    cases hr
    rw [hw _ hs]; simp

/-- `-l 0`, a quotation mark, a backslash, a nul before an `8`, and a tab. -/
example : main [.length [0x30]] [0x22, 0x5c, 0, 0x38, 9] = some ⟨0, [0x22, 0x5c, 0x5c, 0x5c, 0x30, 0x38, 0x5c, 0x74], []⟩ ∧
    Collapsetool.main (fun _ d => d.length) [[0x22, 0x5c, 0x5c, 0x5c, 0x30, 0x38, 0x5c, 0x74]] = some (0, [0x22, 0x5c, 0, 0x38, 9]) := by decide +kernel

example : Internettool.Sized [0x30] 0 ∧ Apart [0x22, 0x5c, 0, 0x38, 9] := by
  constructor
  · rw [sized_iff]; decide +kernel
  · intro p d q h
    have : ∀ i, [0x22#8, 0x5c#8, 0#8, 0x38#8, 9#8][i]? = some 0#8 → [0x22#8, 0x5c#8, 0#8, 0x38#8, 9#8][i + 1]? = some 0x38#8 := by
      intro i
      match i with
      | 0 | 1 | 2 | 3 | 4 => decide
      | i + 5 => simp
    have h : [0x22#8, 0x5c#8, 0#8, 0x38#8, 9#8] = p ++ 0#8 :: d :: q := h
    have hp := this p.length (by rw [h]; simp)
    rw [h] at hp
    have hd : d = 0x38#8 := by simpa using hp
    subst hd
    decide

/-- C175, false of a nul before an octal digit without `-x`: a nul and a `1` are printed as `\01`, which means a byte of one, and with `-x` they are not. -/
theorem octal_counterexample : main [.length [0x30]] [0x61, 0, 0x31] = some ⟨0, [0x61, 0x5c, 0x30, 0x31], []⟩ ∧
    Collapsetool.main (fun _ d => d.length) [[0x61, 0x5c, 0x30, 0x31]] = some (0, [0x61, 1]) ∧
    main [.length [0x30], .hex] [0x61, 0, 0x31] = some ⟨0, [0x61, 0x5c, 0x78, 0x30, 0x30, 0x31], []⟩ := by decide +kernel

/-- C175, false of lines: without `-l`, a newline is printed at the end, and it is not in the input. -/
theorem lines_counterexample : main [] [0x61] = some ⟨0, [0x61, 0x0a], []⟩ ∧ Collapsetool.main (fun _ d => d.length) [[0x61, 0x0a]] = some (0, [0x61, 0x0a]) := by decide +kernel

/-- C175, a finding: a length that is empty or negative is taken, and a negative one is a huge one. -/
theorem length_counterexample : options {} [.length []] = .ok { length := 0#64 } ∧ options {} [.length [0x2d, 0x31]] = .ok { length := BitVec.allOnes 64 } := by decide +kernel

end Diminuto.Phextool
