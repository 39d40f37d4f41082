import Verif.EndpointTextLemmas
import Verif.LogLemmas
import Verif.LogStampLemmas

/-!
# The Log feature
-/

namespace Diminuto.Log
open Number (Reads strtoll)
open Section (Steps start Serial Whole told asked)
open Pin (ascii)

/-! ## Masks -/

/-- C101.  Every priority has its own bit of the eight, the most urgent the most significant; another value has all. -/
theorem log_priority_bit (p : Nat) (hp : p < 8) : (∀ q, q < 8 → (HasBit (priority2mask p) q ↔ q = p)) ∧ (priority2mask p).toNat < 256 := by
  have : ∀ p : Fin 8, (∀ q : Fin 8, ((priority2mask (p.val : Int)).toNat.testBit (7 - q.val) = true ↔ q = p)) ∧ (priority2mask (p.val : Int)).toNat < 256 := by decide
  obtain ⟨h1, h2⟩ := this ⟨p, hp⟩
  refine ⟨fun q hq => ?_, h2⟩
  have := h1 ⟨q, hq⟩
  simp only [Fin.mk.injEq] at this
  exact this

/-- C101.  A value that is no priority has all the bits, and so is enabled unless none is. -/
theorem log_priority_other (p : Int) (hp : p < 0 ∨ 7 < p) : priority2mask p = ALL ∧ ∀ q, q < 8 → HasBit (priority2mask p) q := by
  have : priority2mask p = ALL := by
    unfold priority2mask
    rw [if_neg (by omega), if_neg (by omega), if_neg (by omega), if_neg (by omega), if_neg (by omega), if_neg (by omega), if_neg (by omega), if_neg (by omega)]
  refine ⟨this, fun q hq => ?_⟩
  rw [this]
  have : ∀ q : Fin 8, ALL.toNat.testBit (7 - q.val) = true := by decide
  exact this ⟨q, hq⟩

/-- C101.  A priority is enabled exactly if the mask has its bit. -/
theorem log_enabled (mask : BitVec 32) (p : Nat) (hp : p < 8) : enabled mask (priority2mask p) = true ↔ HasBit mask p := by
  have hs : ∀ p : Fin 8, priority2mask (p.val : Int) = BitVec.twoPow 32 (7 - p.val) := by decide
  have hs := hs ⟨p, hp⟩
  simp only [] at hs
  unfold enabled HasBit
  rw [hs, BitVec.and_twoPow]
  have e : mask.toNat.testBit (7 - p) = mask.getLsbD (7 - p) := by rw [BitVec.getLsbD]
  rw [e]
  cases mask.getLsbD (7 - p) with
  | false => simp
  | true =>
    simp only [if_true, decide_eq_true_eq, iff_true]
    intro h
    have := congrArg BitVec.toNat h
    rw [BitVec.toNat_twoPow_of_lt (by omega)] at this
    simp at this

/-- The default mask enables the priorities from emergency to notice. -/
example : (∀ p : Fin 6, enabled DEFAULT (priority2mask (p.val : Int)) = true) ∧ enabled DEFAULT (priority2mask 6) = false ∧ enabled DEFAULT (priority2mask 7) = false := by decide

/-- C101.  Without the environmental variable the mask is left as it is; `~0` enables all; and a number in decimal, octal, or hexadecimal is the mask. -/
theorem log_setmask (mask : BitVec 32) : setmask none mask = mask ∧ setmask (some (ascii "~0")) mask = ALL ∧
    ∀ s n, Reads s false n [] → n < 2 ^ 31 → (setmask (some s) mask).toNat = n := by
  refine ⟨rfl, rfl, fun s n h hn => ?_⟩
  have he := strtoll_reads h (by omega)
  have hne : s ≠ ascii "~0" := by
    rintro rfl
    have : Number.scan (ascii "~0") = none := by decide
    rw [(Number.scan_iff _ _ _ _).mpr h] at this
    cases this
  simp only [setmask, he]
  rw [if_neg hne, if_neg (by omega), if_neg (by simp), BitVec.ofInt_natCast, BitVec.toNat_ofNat]
  omega

/-- The hexadecimal number `0xFF` is one. -/
example : Reads (ascii "0xFF") false 255 [] := (Number.scan_iff _ _ _ _).mp (by decide)

/-- C101.  Claimed: if the value is not a number, the mask is left as it is.  Shown here for one that is not empty; minus zero is taken for zero. -/
theorem log_setmask_other_partial (mask : BitVec 32) (s : List Byte) (hs : s ≠ []) (ha : s ≠ ascii "~0") (hn : ∀ n, ¬ Reads s false n []) (hz : ¬ Reads s true 0 []) : setmask (some s) mask = mask := by
  simp only [setmask]
  rw [if_neg ha]
  by_cases h0 : (strtoll s).1 < 0
  · rw [if_pos h0]
  rw [if_neg h0]
  by_cases h1 : (strtoll s).2.1 ≠ []
  · rw [if_pos h1]
  exfalso
  have h1 : (strtoll s).2.1 = [] := by simpa using h1
  rcases strtoll_inv rfl h1 with ⟨-, h, -⟩ | ⟨n, h, -⟩ | ⟨n, h, h2, h3⟩
  · exact hs h.symm
  · exact hn n h
  · have := h3 (by omega)
    subst this
    exact hz h

/-- Such a value. -/
example : (∀ n, ¬ Reads (ascii "255x") false n []) ∧ ¬ Reads (ascii "255x") true 0 [] := by
  have h : Number.scan (ascii "255x") = some (false, 255, [120#8]) := by decide
  refine ⟨fun n hn => ?_, fun hn => ?_⟩
  · rw [(Number.scan_iff _ _ _ _).mpr hn] at h; simp at h
  · rw [(Number.scan_iff _ _ _ _).mpr hn] at h; simp at h

/-- C101, refuted.  An empty value is no number, and disables all messages. -/
theorem log_setmask_empty_counterexample : (∀ g n r, ¬ Reads [] g n r) ∧ setmask (some []) DEFAULT = 0#32 := by
  refine ⟨fun g n r h => ?_, by decide⟩
  have : Number.scan [] = none := by decide
  rw [(Number.scan_iff _ _ _ _).mpr h] at this
  cases this

/-- C101, refuted.  A number that does not fit is not refused: 2^32 disables all messages, and a number that does not even fit a `long` is the mask -1. -/
theorem log_setmask_range_counterexample : Reads (ascii "4294967296") false 4294967296 [] ∧ setmask (some (ascii "4294967296")) DEFAULT = 0#32 ∧
    Reads (ascii "99999999999999999999") false 99999999999999999999 [] ∧ setmask (some (ascii "99999999999999999999")) DEFAULT = -1#32 :=
  ⟨(Number.scan_iff _ _ _ _).mp (by decide), by decide, (Number.scan_iff _ _ _ _).mp (by decide), by decide⟩

theorem follows_newline (r : List Byte) (h : Tail r) : follows r = true ∧ follows (r ++ [10#8]) = true := by
  rcases h with rfl | ⟨c, t, rfl, rfl | rfl | rfl⟩ <;> simp [follows]

/-- C101.  A file whose first line has a number, and perhaps a blank and anything after it, or a comment, sets the mask to it; one whose first line is `~0` enables all. -/
theorem log_importmask (path home : Option (List Byte)) (files : List Byte → File) (mask : BitVec 32) (l f : List Byte) (hl : files (maskpath path home) = .text l) (hf : FirstLine l f)
    (h80 : f.length ≤ 79) (h0 : 0#8 ∉ f) (he : l ≠ []) :
    (f = ascii "~0" → (importmask path home files mask).1 = ALL) ∧ ∀ n r, Reads f false n r → Tail r → n < 2 ^ 31 → (importmask path home files mask).1.toNat = n := by
  unfold importmask
  simp only [hl, if_neg he]
  refine ⟨?_, ?_⟩
  · rintro rfl
    rcases line_of hf h80 h0 with h | h <;> rw [h] <;> rfl
  · intro n r hr ht hn
    have hne : ∀ g, Reads g false n r → g.take 2 ≠ ascii "~0" := by
      intro g hg ht
      have : ∃ u, g = 126#8 :: 48#8 :: u := by
        match g, ht with
        | [], h => exact absurd h (by decide)
        | [a], h => exact absurd (congrArg List.length h) (by simp [ascii])
        | a :: b :: u, h =>
          have h : [a, b] = [126#8, 48#8] := h
          simp only [List.cons.injEq, and_true] at h
          exact ⟨u, by rw [h.1, h.2]⟩
      obtain ⟨u, rfl⟩ := this
      have : Number.scan (126#8 :: 48#8 :: u) = none := by
        simp [Number.scan, Number.isSpace, Number.sign, Number.magnitude, Number.digits, Number.digit]
      rw [(Number.scan_iff _ _ _ _).mpr hg] at this
      cases this
    have hne' : (line l).take 2 ≠ ascii "~0" := by
      rcases line_of hf h80 h0 with h | h
      · rw [h]; exact hne f hr
      · rw [h]
        intro hh
        refine hne f hr ?_
        have hfl : 2 ≤ f.length := by
          match f, hr with
          | [], hr => have : Number.scan [] = none := by decide
                      rw [(Number.scan_iff _ _ _ _).mpr hr] at this; cases this
          | [a], _ =>
            have hh : [a, 10#8] = [126#8, 48#8] := hh
            simp at hh
          | a :: b :: u, _ => simp
        rw [List.take_append_of_le_length hfl] at hh
        exact hh
    rw [if_neg hne']
    have hv : ∃ q, strtoll (line l) = ((n : Int), q, none) ∧ follows q = true := by
      rcases line_of hf h80 h0 with h | h
      · rw [h]; exact ⟨r, strtoll_reads hr (by omega), (follows_newline r ht).1⟩
      · rw [h]; exact ⟨r ++ [10#8], strtoll_reads (reads_newline hr) (by omega), (follows_newline r ht).2⟩
    obtain ⟨q, hq, hfo⟩ := hv
    rw [hq]
    simp only [hfo]
    rw [if_neg (by omega), if_neg (by simp), BitVec.ofInt_natCast, BitVec.toNat_ofNat]
    omega

/-- Such a file. -/
example : FirstLine (ascii "0377 # all\nrest") (ascii "0377 # all") ∧ Reads (ascii "0377 # all") false 255 (ascii " # all") ∧ Tail (ascii " # all") :=
  ⟨⟨by decide, Or.inr ⟨ascii "rest", by decide⟩⟩, (Number.scan_iff _ _ _ _).mp (by decide), Or.inr ⟨32#8, ascii "# all", by decide, Or.inl rfl⟩⟩

/-- C101.  If there is no file, or it cannot be opened or is empty, the mask is left as it is; a file that has been opened is closed. -/
theorem log_importmask_file (path home : Option (List Byte)) (files : List Byte → File) (mask : BitVec 32) :
    (files (maskpath path home) = .absent → importmask path home files mask = (mask, [])) ∧
    (files (maskpath path home) = .locked → importmask path home files mask = (mask, [.fopen (maskpath path home)])) ∧
    (∀ l, files (maskpath path home) = .text l → (importmask path home files mask).2 = [.fopen (maskpath path home), .fclose] ∧ (l = [] → (importmask path home files mask).1 = mask)) ∧
    (∀ p, path = some p → maskpath path home = p) ∧
    (∀ h, path = none → home = some h → h.length ≤ 4000 → maskpath path home = h ++ ascii "/.com_diag_diminuto_log_mask") := by
  refine ⟨fun h => by simp [importmask, h], fun h => by simp [importmask, h], fun l h => ⟨by simp [importmask, h], fun he => by simp [importmask, h, he]⟩, ?_, ?_⟩
  · rintro p rfl; rfl
  · rintro h rfl rfl hl
    simp only [maskpath, Option.getD_some]
    have e : ascii "/" ++ ascii ".com_diag_diminuto_log_mask" = ascii "/.com_diag_diminuto_log_mask" := by decide
    rw [List.append_assoc, e, List.take_of_length_le]
    rw [List.length_append, show (ascii "/.com_diag_diminuto_log_mask").length = 28 by decide]
    omega

/-- C101.  The file is the one that is given, or one in the home directory, or, if there is none, in the working directory. -/
theorem log_maskpath (path home : List Byte) (h : home.length ≤ 4067) :
    (∀ o, maskpath (some path) o = path) ∧ maskpath none (some home) = home ++ ascii "/.com_diag_diminuto_log_mask" ∧ maskpath none none = ascii "./.com_diag_diminuto_log_mask" := by
  refine ⟨fun _ => rfl, ?_, by decide⟩
  have e : ascii "/" ++ ascii ".com_diag_diminuto_log_mask" = ascii "/.com_diag_diminuto_log_mask" := by decide
  have l : (ascii "/.com_diag_diminuto_log_mask").length = 28 := by decide
  show ((home ++ ascii "/" ++ ascii ".com_diag_diminuto_log_mask").take 4095) = _
  rw [List.append_assoc, e, List.take_of_length_le (by rw [List.length_append, l]; omega)]

/-- C101.  By default informational and debugging messages are masked, and no others are. -/
theorem log_default (p : Nat) (hp : p < 8) : enabled DEFAULT (priority2mask p) = true ↔ p ≤ 5 := by
  have : ∀ q : Fin 8, enabled DEFAULT (priority2mask q.val) = true ↔ q.val ≤ 5 := by decide
  exact this ⟨p, hp⟩

/-- C101.  Claimed: if the first line has no number, the mask is left as it is.  Shown here for one that begins with anything but a blank or `#`, or with `~0`, and without minus zero. -/
theorem log_importmask_other_partial (path home : Option (List Byte)) (files : List Byte → File) (mask : BitVec 32) (l f : List Byte) (hl : files (maskpath path home) = .text l) (hf : FirstLine l f)
    (h80 : f.length ≤ 79) (h0 : 0#8 ∉ f) (c : Byte) (t : List Byte) (hc : f = c :: t) (hb : c ≠ 32#8 ∧ c ≠ 9#8 ∧ c ≠ 35#8) (ha : f.take 2 ≠ ascii "~0")
    (hn : ∀ g n r, ¬ Reads (line l) g n r) : (importmask path home files mask).1 = mask := by
  have hll : l ≠ [] := by
    rintro rfl
    rcases hf.2 with h | ⟨r, h⟩
    · rw [← h] at hc; cases hc
    · exact absurd h (by simp)
  unfold importmask
  simp only [hl, if_neg hll, strtoll_none hn]
  have c10 : c ≠ 10#8 := by rintro rfl; exact hf.1 (by rw [hc]; simp)
  have hne' : (line l).take 2 ≠ ascii "~0" := by
    rcases line_of hf h80 h0 with h | h
    · rw [h]; exact ha
    · rw [h]
      intro hh
      refine ha ?_
      match f, hc with
      | [a], _ =>
        have hh : [a, 10#8] = [126#8, 48#8] := hh
        simp at hh
      | a :: b :: u, _ => rw [List.take_append_of_le_length (by simp)] at hh; exact hh
  have hfo : follows (line l) = false := by
    have : ∃ u, line l = c :: u := by
      rcases line_of hf h80 h0 with h | h
      · exact ⟨t, by rw [h, hc]⟩
      · exact ⟨t ++ [10#8], by rw [h, hc]; rfl⟩
    obtain ⟨u, hu⟩ := this
    rw [hu]
    simp [follows, hb.1, hb.2.1, hb.2.2, c10]
  rw [if_neg hne', if_neg (by omega), hfo, if_pos (by simp)]

/-- Such a file. -/
example : FirstLine (ascii "none\n") (ascii "none") ∧ ∀ g n r, ¬ Reads (line (ascii "none\n")) g n r := by
  refine ⟨⟨by decide, Or.inr ⟨[], by decide⟩⟩, fun g n r h => ?_⟩
  have : Number.scan (line (ascii "none\n")) = none := by decide
  rw [(Number.scan_iff _ _ _ _).mpr h] at this
  cases this

/-- C101, refuted.  A first line that is empty or only a comment disables all messages, and one that begins with `~0` enables all whatever follows. -/
theorem log_importmask_other_counterexample : ((importmask (some []) none (fun _ => .text (ascii "\n0xff\n")) DEFAULT).1 = 0#32) ∧
    ((importmask (some []) none (fun _ => .text (ascii "# The mask.\n0xff\n")) DEFAULT).1 = 0#32) ∧ (importmask (some []) none (fun _ => .text (ascii "~0123\n")) DEFAULT).1 = ALL := by decide

/-! ## Messages -/

/-- C102.  What is written is the header and the text, with a newline at the end unless there is one; if that is longer than the buffer without its last byte, it is cut, and ends with a newline
all the same.  No byte outside of the buffer is accessed. -/
theorem log_message (header text : List Byte) (h : header ++ text ≠ []) : assemble MAXIMUM header text = some (limited (MAXIMUM - 1) (header ++ text)) := by
  rw [assemble_eq _ (by decide) _ _ h]
  congr 1
  unfold limited ended
  generalize header ++ text = l at *
  generalize hM : MAXIMUM = M
  have hM2 : 2 ≤ M := by rw [← hM]; decide
  by_cases hn : l.getLast? = some 10#8
  · rw [if_pos hn, if_neg (show ¬ (l.getLast? ≠ some 10#8) by simp [hn])]
    by_cases hl : M - 1 ≤ l.length
    · rw [if_pos hl]
      by_cases he : l.length ≤ M - 1
      · rw [if_pos he, show M - 2 = l.length - 1 by omega]
        exact take_ended hn
      · rw [if_neg he]; rfl
    · rw [if_neg hl, if_pos (by omega)]
  · rw [if_neg hn, if_pos hn, List.length_append, List.length_singleton]
    by_cases hl : M - 1 ≤ l.length
    · rw [if_pos hl, if_neg (by omega)]; rfl
    · rw [if_neg hl, if_pos (by omega)]

/-- C102.  The header is never empty, so this is the case for every message; and it is a line: its last byte is its newline. -/
theorem log_message_line (now : Option Time.Fields) (hostname : List Byte) (priority : BitVec 32) (pid tid : Nat) (text : List Byte) :
    ∃ m, assemble MAXIMUM (header now hostname priority pid tid) text = some (m ++ [10#8]) ∧ m.length + 1 < MAXIMUM ∧
      (m <+: header now hostname priority pid tid ++ text) := by
  have hne : header now hostname priority pid tid ≠ [] := by
    unfold header
    intro h
    have := congrArg List.length h
    simp [ascii] at this
  have h : header now hostname priority pid tid ++ text ≠ [] := by simp [hne]
  rw [log_message _ _ h]
  generalize header now hostname priority pid tid ++ text = l at *
  unfold limited
  by_cases hl : (ended l).length ≤ MAXIMUM - 1
  · rw [if_pos hl]
    unfold ended at *
    by_cases hn : l.getLast? = some 10#8
    · rw [if_pos hn] at hl ⊢
      have h0 : 0 < l.length := List.length_pos_iff.mpr h
      refine ⟨l.take (l.length - 1), by rw [take_ended hn], ?_, List.take_prefix _ _⟩
      rw [List.length_take]
      have : MAXIMUM = 8192 := rfl
      omega
    · rw [if_neg hn] at hl ⊢
      refine ⟨l, rfl, ?_, List.prefix_rfl⟩
      simp at hl
      have : MAXIMUM = 8192 := rfl
      omega
  · rw [if_neg hl]
    refine ⟨_, rfl, ?_, List.take_prefix _ _⟩
    rw [List.length_take]
    have : MAXIMUM = 8192 := rfl
    omega

/-- Without the header an empty text would be a read before the buffer. -/
example : assemble MAXIMUM [] [] = none := by decide

/-- A message with a newline and one without are the same. -/
example : assemble 16 (ascii "a ") (ascii "b") = some (ascii "a b\n") ∧ assemble 16 (ascii "a ") (ascii "b\n") = some (ascii "a b\n") ∧
    assemble 8 (ascii "abcdef ") (ascii "gh") = some (ascii "abcdef\n") := by decide

/-- C102.  Writing a message comes to an end, whatever the kernel does. -/
theorem log_write_ends {σ : Type} {k : Kernel σ} {content : σ → List Byte} (hk : Honest k content) (d : List Byte) (hd0 : d ≠ []) (hd : d.length < MAXIMUM) (s : σ × Nat) :
    ∃ x, Whole (emission k) d s () x :=
  ends hk d (by have : MAXIMUM = 8192 := rfl; omega) s d.length d s rfl hd0 (Nat.le_refl _) .nil

/-- C102.  Claimed: afterwards the whole message has been written, or it is counted as lost.  Shown here if `write(2)` does not fail, however few bytes it takes at a time. -/
theorem log_delivered_partial {σ : Type} {k : Kernel σ} {content : σ → List Byte} (hk : Honest k content) (hs : Succeeds k) (d : List Byte) (hd0 : d ≠ []) (hd : d.length < MAXIMUM) (s x : σ × Nat)
    (h : Whole (emission k) d s () x) : (content x.1 = content s.1 ++ d ∧ x.2 = s.2) ∨ (x.2 = s.2 + 1 ∧ ∃ u, u <+: d ∧ u ≠ d ∧ content x.1 = content s.1 ++ u) := by
  have hd : d.length < 2 ^ 31 := by have : MAXIMUM = 8192 := rfl; omega
  rcases whole_inv hk hd0 hd h with h | ⟨u, l, h1, h2, h3, h4 | ⟨-, a, e, b, h4⟩⟩
  · exact Or.inl h
  · refine Or.inr ⟨h4, u, ⟨l, h1.symm⟩, ?_, h3⟩
    rintro rfl
    exact h2 (List.append_cancel_left (as := u) (by simpa using h1.symm))
  · have := hs _ _ _ _ _ h4; omega

/-- C102.  If it always takes something, the message is written. -/
theorem log_delivered_all {σ : Type} {k : Kernel σ} {content : σ → List Byte} (hk : Honest k content) (hs : Takes k) (d : List Byte) (hd0 : d ≠ []) (hd : d.length < MAXIMUM) (s x : σ × Nat)
    (h : Whole (emission k) d s () x) : content x.1 = content s.1 ++ d ∧ x.2 = s.2 := by
  have hd : d.length < 2 ^ 31 := by have : MAXIMUM = 8192 := rfl; omega
  obtain ⟨l, p, hp, hq⟩ := h
  obtain ⟨h1, h2, h3, u, h4, h5⟩ := part_inv hk hd0 hd hp
  have hq : turn k l (p.1, p.2) = (.inr (), x) := hq
  rcases hw : k.write l p.1 with ⟨r, e, s'⟩
  have hr := hs _ _ _ _ _ hw
  rcases hk _ _ _ _ _ hw with ⟨rfl, -⟩ | ⟨n, rfl, hn, hc⟩
  · omega
  · rw [turn_took hw (by omega) hn (by omega)] at hq
    by_cases hl : n = l.length
    · simp [hl] at hq
      subst hq
      refine ⟨?_, h3⟩
      rw [hc, h5, List.append_assoc, List.take_of_length_le (by omega), ← h4]
    · simp [hl] at hq

/-- C102, refuted.  If `write(2)` fails the message is lost and is not counted; the loop takes -1, converted to an unsigned number, for more than there is to write.  This is so also when the call
was only interrupted and would have had to be repeated. -/
theorem log_delivered_counterexample (e : Bool) :
    Whole (emission disk) (ascii "message\n") (⟨[], 100, [e]⟩, 0) () (⟨[], 100, []⟩, 0) ∧ ¬ Whole (emission disk) (ascii "message\n") (⟨[], 100, [e]⟩, 0) () (⟨ascii "message\n", 100, []⟩, 0) := by
  have ht : turn disk (ascii "message\n") (⟨[], 100, [e]⟩, 0) = (.inr (), (⟨[], 100, []⟩, 0)) := turn_failed (e := e) rfl (by decide)
  refine ⟨⟨_, _, .nil, ht⟩, ?_⟩
  rintro ⟨l, p, hp, hq⟩
  have key : ∀ l p, Section.Part (emission disk) (ascii "message\n") (⟨[], 100, [e]⟩, 0) l p → l = ascii "message\n" ∧ p = (⟨[], 100, [e]⟩, 0) := by
    intro l p hp
    induction hp with
    | nil => exact ⟨rfl, rfl⟩
    | more hp hq ih =>
      obtain ⟨rfl, rfl⟩ := ih
      have hq : turn disk (ascii "message\n") (⟨[], 100, [e]⟩, 0) = _ := hq
      rw [ht] at hq
      cases hq
  obtain ⟨rfl, rfl⟩ := key l p hp
  have hq : turn disk (ascii "message\n") (⟨[], 100, [e]⟩, 0) = _ := hq
  rw [ht] at hq
  simp only [Prod.mk.injEq, Disk.mk.injEq, true_and, and_true] at hq
  exact absurd hq (by decide)

/-- C102.  The messages of several threads are not mixed up: what has been written is, message after message, what the threads have logged, in an order that keeps that of every thread.  If the kernel
always takes something then every message is there as a whole and none is lost; otherwise the first bytes of it are.  Of a message in which its thread was cancelled the first bytes are there. -/
theorem log_contiguous {σ : Type} {k : Kernel σ} {content : σ → List Byte} (hk : Honest k content) (todo : Nat → List (Bool × List Byte))
    (hm : ∀ t d, d ∈ todo t → d.1 = false ∧ d.2 ≠ [] ∧ d.2.length < MAXIMUM) (s : σ) (x : Section.Sys (σ × Nat) (List Byte) (List Byte) Unit) (hx : Steps (emission k) (start todo (s, 0)) x)
    (hf : ∀ t, (x.threads t).running = none) :
    ∃ h c, content x.world.1 = content s ++ c ∧ Written true h c ∧ (Takes k → Written false h c ∧ x.world.2 = 0) ∧ (∀ t, (x.threads t).results = told t h) ∧
      ∀ t, asked t h ++ (x.threads t).todo = todo t := by
  obtain ⟨h, h1, h2, h3⟩ := Section.section_serial (emission k) todo (s, 0) x hx hf
  have good : ∀ e ∈ h, e.2.1 = false ∧ e.2.2.1 ≠ [] ∧ e.2.2.1.length < MAXIMUM := by
    intro e he
    refine hm e.1 (e.2.1, e.2.2.1) ?_
    rw [← h3 e.1]
    refine List.mem_append_left _ ?_
    simp only [asked, List.mem_filterMap]
    exact ⟨e, he, by simp⟩
  have key : ∀ h (z : σ × Nat), Serial (emission k) (s, 0) h z → (∀ e ∈ h, e.2.1 = false ∧ e.2.2.1 ≠ [] ∧ e.2.2.1.length < MAXIMUM) →
      ∃ c, content z.1 = content s ++ c ∧ Written true h c ∧ (Takes k → Written false h c ∧ z.2 = 0) := by
    intro h z hz
    induction hz with
    | nil => intro _; exact ⟨[], by simp, .nil, fun _ => ⟨.nil, rfl⟩⟩
    | @done h p q r t b d hs hw ih =>
      intro hg
      obtain ⟨c, c1, c2, c3⟩ := ih (fun e he => hg e (List.mem_append_left _ he))
      obtain ⟨-, g2, g3⟩ := hg (t, b, d, .done r) (by simp)
      have g4 : d.length < 2 ^ 31 := by have : MAXIMUM = 8192 := rfl; simp only [] at g3; omega
      have : ∃ u, u <+: d ∧ content q.1 = content p.1 ++ u := by
        rcases whole_inv hk g2 g4 hw with ⟨h5, -⟩ | ⟨u, l, h5, -, h6, -⟩
        · exact ⟨d, List.prefix_rfl, h5⟩
        · exact ⟨u, ⟨l, h5.symm⟩, h6⟩
      obtain ⟨u, hu, hc⟩ := this
      refine ⟨c ++ u, by rw [hc, c1, List.append_assoc], .done t b d c2 (Or.inr ⟨rfl, hu⟩), fun ht => ?_⟩
      obtain ⟨h5, h6⟩ := log_delivered_all hk ht d g2 g3 p q hw
      have e : u = d := List.append_cancel_left (hc.symm.trans h5)
      exact ⟨.done t b d (c3 ht).1 (Or.inl e), by rw [h6]; exact (c3 ht).2⟩
    | @cut h p q l t b d hs hw ih =>
      intro hg
      obtain ⟨c, c1, c2, c3⟩ := ih (fun e he => hg e (List.mem_append_left _ he))
      obtain ⟨-, g2, g3⟩ := hg (t, b, d, .cut) (by simp)
      have g4 : d.length < 2 ^ 31 := by have : MAXIMUM = 8192 := rfl; simp only [] at g3; omega
      obtain ⟨-, -, h5, u, h6, h7⟩ := part_inv hk g2 g4 hw
      exact ⟨c ++ u, by rw [h7, c1, List.append_assoc], .cut t b d c2 ⟨l, h6.symm⟩, fun ht => ⟨.cut t b d (c3 ht).1 ⟨l, h6.symm⟩, by rw [h5]; exact (c3 ht).2⟩⟩
    | @skipped h p t d hs ih =>
      intro hg
      have := (hg (t, true, d, .skipped) (by simp)).1
      simp at this
  obtain ⟨c, c1, c2, c3⟩ := key h x.world h1 good
  exact ⟨h, c, c1, c2, c3, h2, h3⟩

/-- A kernel that takes three bytes at a time. -/
example : Honest disk Disk.content ∧ Whole (emission disk) (ascii "ab\ncd\n") (⟨ascii "x\n", 3, []⟩, 0) () (⟨ascii "x\nab\ncd\n", 3, []⟩, 0) :=
  ⟨disk_honest, ascii "cd\n", (⟨ascii "x\nab\n", 3, []⟩, 0),
    .more .nil (by show turn disk (ascii "ab\ncd\n") (⟨ascii "x\n", 3, []⟩, 0) = (.inl (ascii "cd\n"), (⟨ascii "x\nab\n", 3, []⟩, 0)); rfl),
    by show turn disk (ascii "cd\n") (⟨ascii "x\nab\n", 3, []⟩, 0) = (.inr (), (⟨ascii "x\nab\ncd\n", 3, []⟩, 0)); rfl⟩

/-! ## Timestamps -/

/-- C105.  The timestamps of messages sort as text: if one message is logged later than another (after the Epoch, on clocks that can be represented), its line comes later in lexicographic order,
whatever follows the timestamp. -/
theorem log_stamps_sort (t u : Int) (h0 : 0 ≤ t) (h : t < u) (hu : u ≤ 9223372036854775807) :
    ∃ f g, fields Time.gregorian t = some (some f) ∧ fields Time.gregorian u = some (some g) ∧ ∀ a b, Before (stamp f ++ a) (stamp g ++ b) := by
  refine ⟨_, _, fields_eq t h0 (by omega), fields_eq u (by omega) hu, fun a b => stamp_before ?_ ?_ ?_ a b⟩
  · have r := civil_range (t / 1000000000 / 86400)
    have y := civil_year (t / 1000000000 / 86400) (by omega) (by omega)
    unfold Ordinary
    simp only []
    generalize Time.civil (t / 1000000000 / 86400) = c at *
    omega
  · have r := civil_range (u / 1000000000 / 86400)
    have y := civil_year (u / 1000000000 / 86400) (by omega) (by omega)
    unfold Ordinary
    simp only []
    generalize Time.civil (u / 1000000000 / 86400) = c at *
    omega
  · unfold Earlier
    simp only []
    by_cases hd : t / 1000000000 / 86400 < u / 1000000000 / 86400
    · have := civil_before hd
      generalize Time.civil (t / 1000000000 / 86400) = c at *
      generalize Time.civil (u / 1000000000 / 86400) = d at *
      rcases this with h | ⟨h1, h | ⟨h2, h⟩⟩
      · exact Or.inl h
      · exact Or.inr ⟨h1, Or.inl h⟩
      · exact Or.inr ⟨h1, Or.inr ⟨h2, Or.inl h⟩⟩
    · have e : t / 1000000000 / 86400 = u / 1000000000 / 86400 := by omega
      rw [e]
      refine Or.inr ⟨rfl, Or.inr ⟨rfl, Or.inr ⟨rfl, ?_⟩⟩⟩
      generalize hT : t / 1000000000 = T at *
      generalize hU : u / 1000000000 = U at *
      have h2 : T < U ∨ T = U ∧ t % 1000000000 < u % 1000000000 := by omega
      rcases h2 with h2 | ⟨rfl, h2⟩
      · clear h0 h hu hd hT hU
        omega
      · exact Or.inr ⟨rfl, Or.inr ⟨rfl, Or.inr ⟨rfl, h2⟩⟩⟩

/-- C105.  Equal timestamps are only those of equal times. -/
theorem log_stamps_distinct (t u : Int) (h0 : 0 ≤ t) (h1 : 0 ≤ u) (ht : t ≤ 9223372036854775807) (hu : u ≤ 9223372036854775807) (f g : Time.Fields) (hf : fields Time.gregorian t = some (some f))
    (hg : fields Time.gregorian u = some (some g)) (h : stamp f = stamp g) : t = u := by
  have irr : ∀ l : List Byte, ¬ Before l l := by
    intro l
    induction l with
    | nil => intro h; cases h
    | cons a l ih =>
      intro h
      cases h with
      | head h => omega
      | tail h => exact ih h
  rcases Int.lt_trichotomy t u with hlt | heq | hgt
  · obtain ⟨f', g', hf', hg', hb⟩ := log_stamps_sort t u h0 hlt hu
    rw [hf] at hf'; rw [hg] at hg'
    cases hf'; cases hg'
    have := hb [] []
    rw [h] at this
    exact absurd this (irr _)
  · exact heq
  · obtain ⟨f', g', hf', hg', hb⟩ := log_stamps_sort u t h1 hgt ht
    rw [hg] at hf'; rw [hf] at hg'
    cases hf'; cases hg'
    have := hb [] []
    rw [h] at this
    exact absurd this (irr _)

/-- C105.  The header of a message tells all: whatever follows them, equal headers are those of messages of the same time (as far as both are known), host, priority, process, and thread. -/
theorem log_header_tells (now now' : Option Time.Fields) (host host' : List Byte) (priority priority' : BitVec 32) (pid pid' tid tid' : Nat) (x x' : List Byte) (hh : 34#8 ∉ host) (hh' : 34#8 ∉ host')
    (h : header now host priority pid tid ++ x = header now' host' priority' pid' tid' ++ x') :
    (∀ f f', now = some f → now' = some f' → stamp f = stamp f') ∧ host = host' ∧ priority.toNat % 8 = priority'.toNat % 8 ∧ pid = pid' ∧ tid = tid' ∧ x = x' := by
  have e1 : ascii " \"" = [32#8, 34#8] := by decide
  have e2 : ascii "\" <" = [34#8, 32#8, 60#8] := by decide
  have e3 : ascii "> [" = [62#8, 32#8, 91#8] := by decide
  have e4 : ascii "] {" = [93#8, 32#8, 123#8] := by decide
  have e5 : ascii "} " = [125#8, 32#8] := by decide
  have stars : 34#8 ∉ ascii "****-**-**T**:**:**.*********T" := by decide
  unfold header at h
  rw [e1, e2, e3, e4, e5] at h
  cases now with
  | none =>
    cases now' with
    | none => exact ⟨fun f f' hf => by simp at hf, (header_split stars stars hh hh' h).2⟩
    | some f => exact ⟨fun f f' hf => by simp at hf, (header_split stars (stamp_not f) hh hh' h).2⟩
  | some f =>
    cases now' with
    | none => exact ⟨fun f f' hf hf' => by simp at hf', (header_split (stamp_not f) stars hh hh' h).2⟩
    | some f' =>
      have g := header_split (stamp_not f) (stamp_not f') hh hh' h
      refine ⟨?_, g.2⟩
      intro a b ha hb
      cases ha; cases hb
      exact g.1

/-- C105.  The name of each priority. -/
theorem log_priority_name (p : BitVec 32) (hp : p.toNat < 8) : names[p.toNat]? = some (priorities p) := by
  have : ∀ n : Fin 8, names[n.val]? = some (priorities (BitVec.ofNat 32 n.val)) := by decide
  have := this ⟨p.toNat, hp⟩
  simpa using this

/-- A header. -/
example : header none (ascii "host") 4#32 1234 0x7f00 ++ ascii "Hi" = ascii "****-**-**T**:**:**.*********T \"host\" <WARN> [1234] {7f00} Hi" := by decide +kernel

/-- C105.  A message at a time that is not known, or is before the Epoch, has no timestamp. -/
theorem log_stamps_none (c : Time.Libc) (now : Int) (h : now < 0) (f : Time.Fields) : fields c now ≠ some (some f) := by
  unfold fields
  split
  · simp
  · cases Time.zulu c now with
    | none => simp
    | some g => simp [show ¬ 0 ≤ now by omega]

/-- A timestamp. -/
example : (fields Time.gregorian 1650000000123456789).map (Option.map stamp) = some (some (ascii "2022-04-15T05:20:00.123456789Z")) := by decide +kernel

/-! ## Routing -/

/-- C103.  Claimed: a message goes where the documentation says.  Shown here if the log file descriptor is open (or messages about errors are suppressed), for the four strategies. -/
theorem log_route_partial (strategy : Byte) (hs : strategy = 65#8 ∨ strategy = 69#8 ∨ strategy = 83#8 ∨ strategy = 88#8) (suppress cached : Bool) (p : Process)
    (ho : suppress = true ∨ p.tty = true ∨ p.stat ≠ none) : ∃ r c, vlog strategy suppress cached p = .goes r c ∧ Routes strategy cached p r ∧ ∀ r', Routes strategy cached p r' → r' = r := by
  rcases hs with rfl | rfl | rfl | rfl
  · have hh : ¬ (¬ p.tty ∧ p.stat = none ∧ ¬ suppress) := by
      rintro ⟨h1, h2, h3⟩
      rcases ho with h | h | h
      · exact h3 h
      · exact h1 h
      · exact h h2
    cases cached with
    | true =>
      refine ⟨.syslog, true, by simp [vlog], .before, ?_⟩
      intro r' h; cases h; rfl
    | false =>
      by_cases hf : p.tty = false ∧ p.stat = some FILE
      · refine ⟨.descriptor, false, ?_, .file hf, ?_⟩
        · simp [vlog, hf.1, hf.2]
        · intro r' h
          cases h with
          | file => rfl
          | daemon h => exact absurd hf h
          | interactive => rfl
      · have hf' : ¬ (¬ p.tty = true ∧ p.stat = some FILE) := by simpa using hf
        by_cases hd : p.leader = true ∨ p.orphan = true
        · refine ⟨.syslog, true, ?_, .daemon hf hd, ?_⟩
          · unfold vlog
            rw [if_neg (by decide), if_neg (by decide), if_neg (by decide), if_neg (by decide), if_neg (by decide), if_neg hh, if_neg hf']
            by_cases hl : p.leader
            · rw [if_pos hl]
            · rw [if_neg hl, if_pos (by simpa [hl] using hd)]
          · intro r' h
            cases h with
            | file h => exact absurd h hf
            | daemon => rfl
            | interactive _ h => rw [h.1, h.2] at hd; simp at hd
        · have hd' : p.leader = false ∧ p.orphan = false := by simpa using hd
          refine ⟨.descriptor, false, ?_, .interactive hf hd', ?_⟩
          · unfold vlog
            rw [if_neg (by decide), if_neg (by decide), if_neg (by decide), if_neg (by decide), if_neg (by decide), if_neg hh, if_neg hf', if_neg (by simp [hd'.1]), if_neg (by simp [hd'.2])]
          · intro r' h
            cases h with
            | file h => exact absurd h hf
            | daemon _ h => exact absurd h hd
            | interactive => rfl
  · exact ⟨.descriptor, cached, by simp [vlog], .stderr, fun r' h => by cases h; rfl⟩
  · exact ⟨.syslog, cached, by simp [vlog], .syslog, fun r' h => by cases h; rfl⟩
  · exact ⟨.suppressed, cached, by simp [vlog], .suppress, fun r' h => by cases h; rfl⟩

/-- An interactive process. -/
example : vlog 65#8 false false ⟨true, none, false, false⟩ = .goes .descriptor false := by decide

/-- C103.  `diminuto_log_interactive` tells where the messages of a process with a terminal will go. -/
theorem log_interactive (suppress : Bool) (p : Process) (h : p.tty = true) : vlog 65#8 suppress false p = .goes .descriptor false ↔ interactive p = true := by
  obtain ⟨tty, stat, leader, orphan⟩ := p
  simp only [] at h
  subst h
  cases leader <;> cases orphan <;> simp [vlog, interactive]

/-- C103, refuted.  If the log file descriptor is closed, as that of many daemons is, logging a message never returns: the error of `fstat(2)` is logged while the mutex is held. -/
theorem log_route_counterexample (p : Process) (ht : p.tty = false) (hs : p.stat = none) : vlog 65#8 false false p = .hangs := by
  simp [vlog, ht, hs]

/-- C103.  This is the only way to hang. -/
theorem log_route_hangs (strategy : Byte) (suppress cached : Bool) (p : Process) :
    vlog strategy suppress cached p = .hangs ↔ strategy = 65#8 ∧ suppress = false ∧ cached = false ∧ p.tty = false ∧ p.stat = none := by
  constructor
  · intro h
    have hA : strategy = 65#8 := by
      by_cases hA : strategy = 65#8
      · exact hA
      · by_cases h1 : strategy = 88#8
        · simp [vlog, h1] at h
        · by_cases h2 : strategy = 69#8
          · simp [vlog, h2] at h
          · simp [vlog, h1, h2, hA] at h
    subst hA
    by_cases hh : suppress = true ∨ p.tty = true ∨ p.stat ≠ none
    · obtain ⟨r, c, h1, -⟩ := log_route_partial 65#8 (Or.inl rfl) suppress cached p hh
      rw [h1] at h
      cases h
    · have h3 : suppress = false ∧ p.tty = false ∧ p.stat = none := by simpa using hh
      cases cached with
      | true => simp [vlog] at h
      | false => exact ⟨rfl, h3.1, rfl, h3.2⟩
  · rintro ⟨rfl, rfl, rfl, ht, hs⟩
    exact log_route_counterexample p ht hs

/-- C103.  Once a message has gone to the system log, those after it do, whatever becomes of the process and of the descriptor. -/
theorem log_never_back (strategy : Byte) (suppress cached : Bool) (ps : List Process) (l : List Route) (h : messages strategy suppress cached ps = some l) : NeverBack l := by
  have cachedAll : ∀ (ps : List Process) (l : List Route), messages 65#8 suppress true ps = some l → ∀ r ∈ l, r = .syslog := by
    intro ps
    induction ps with
    | nil => intro l h; simp [messages] at h; subst h; intro r hr; simp at hr
    | cons p ps ih =>
      intro l h
      simp [messages, vlog, openSyslog] at h
      obtain ⟨m, hm, rfl⟩ := h
      intro r hr
      rcases List.mem_cons.mp hr with rfl | hr
      · rfl
      · exact ih m hm r hr
  have other : ∀ r0, (∀ c p, vlog strategy suppress c p = .goes r0 c) → ∀ (ps : List Process) (c : Bool) (l : List Route), messages strategy suppress c ps = some l → ∀ r ∈ l, r = r0 := by
    intro r0 hv ps
    induction ps with
    | nil => intro c l h; simp [messages] at h; subst h; intro r hr; simp at hr
    | cons p ps ih =>
      intro c l h
      simp only [messages, hv, Option.map_eq_some_iff] at h
      obtain ⟨m, hm, rfl⟩ := h
      intro r hr
      rcases List.mem_cons.mp hr with rfl | hr
      · rfl
      · exact ih _ m hm r hr
  have same : ∀ r0 : Route, (∀ r ∈ l, r = r0) → NeverBack l := by
    intro r0 hr a b hl r hb
    have h1 := hr .syslog (by rw [hl]; simp)
    rw [hr r (by rw [hl]; simp [hb]), ← h1]
  by_cases hA : strategy = 65#8
  · subst hA
    clear other same
    induction ps generalizing cached l with
    | nil => simp [messages] at h; subst h; intro a b hl; simp at hl
    | cons p ps ih =>
      cases hv : vlog 65#8 suppress cached p with
      | hangs => simp [messages, hv] at h
      | goes r c =>
        simp only [messages, hv, Option.map_eq_some_iff] at h
        obtain ⟨m, hm, rfl⟩ := h
        have hc : r = .syslog → c = true := by
          rintro rfl
          unfold vlog at hv
          rw [if_neg (by decide), if_neg (by decide), if_neg (by decide), if_neg (by decide)] at hv
          split at hv
          · simp at hv; rename_i hx; rw [← hv]; exact hx
          · split at hv
            · simp at hv
            · split at hv
              · simp at hv
              · split at hv
                · simp at hv; exact hv
                · split at hv
                  · simp at hv; exact hv
                  · simp at hv
        intro a b hl r' hb
        cases a with
        | nil =>
          simp at hl
          obtain ⟨rfl, rfl⟩ := hl
          rw [if_pos rfl, hc rfl] at hm
          have e : openSyslog true p = true := by simp [openSyslog]
          rw [e] at hm
          exact cachedAll ps m hm r' hb
        | cons x a =>
          simp at hl
          exact ih _ m hm a b hl.2 r' hb
  · by_cases h1 : strategy = 88#8
    · exact same _ (other .suppressed (by intro c p; simp [vlog, h1]) ps cached l h)
    · by_cases h2 : strategy = 69#8
      · exact same _ (other .descriptor (by intro c p; simp [vlog, h2]) ps cached l h)
      · exact same _ (other .syslog (by intro c p; simp [vlog, h1, h2, hA]) ps cached l h)

/-- A process that becomes a daemon, and gets a terminal afterwards. -/
example : messages 65#8 false false [⟨true, none, false, false⟩, ⟨false, some 99#8, false, true⟩, ⟨true, none, false, false⟩, ⟨false, none, false, false⟩] = some [.descriptor, .syslog, .syslog, .syslog] := by
  decide

/-- C103.  Logging leaves `errno` as it is, also logging about an error; and what is logged is about the error at the time of the call. -/
theorem log_errno {σ : Type} (body : Int × σ → Int × σ) (about : Int → Int × σ → Int × σ) (suppress : Bool) (e : Int) (s : σ) :
    (variadic body (e, s)).1 = e ∧ (variadic body (e, s)).2 = (body (e, s)).2 ∧ (perror suppress about (e, s)).1 = e ∧
    (perror suppress about (e, s)).2 = if suppress then s else (about e (e, s)).2 := by
  refine ⟨rfl, rfl, ?_, ?_⟩ <;> cases suppress <;> simp [perror, variadic]

/-! ## The stream -/

/-- C104.  The stream of the log is one for the log file descriptor, or there is none because `fdopen(3)` has failed. -/
theorem log_stream_descriptor (descriptor : Int) (file : Option Stream) (fileno : Stream → Int) (fdopen : Option Stream) (hf : ∀ f, fdopen = some f → fileno f = descriptor) :
    (∀ f, (stream descriptor file fileno fdopen).1 = some f → fileno f = descriptor) ∧
    ((stream descriptor file fileno fdopen).1 = none → fdopen = none ∧ StreamCall.fdopen descriptor ∈ (stream descriptor file fileno fdopen).2) := by
  cases file with
  | none =>
    simp only [stream]
    split
    · rename_i h; exact ⟨by simp [h], by simp⟩
    · split
      · rename_i h; exact ⟨by simp [h], by simp⟩
      · exact ⟨hf, fun h => ⟨h, by simp⟩⟩
  | some g =>
    simp only [stream]
    by_cases h0 : descriptor = fileno g
    · rw [if_pos h0]; simp [h0]
    · rw [if_neg h0]
      split
      · rename_i f hh
        exfalso
        split at hh <;> try (simp at hh)
        split at hh <;> try (simp at hh)
        split at hh <;> try (simp at hh)
        split at hh <;> simp at hh
      · split
        · rename_i h; exact ⟨by simp [h], by simp⟩
        · split
          · rename_i h; exact ⟨by simp [h], by simp⟩
          · exact ⟨hf, fun h => ⟨h, by simp⟩⟩

/-- C104.  The standard streams, and streams with the descriptors of these, are never closed; another one is closed if it is replaced, and only then; and `fdopen(3)` is not called for a descriptor that
has a standard stream. -/
theorem log_stream_closes (descriptor : Int) (file : Option Stream) (fileno : Stream → Int) (fdopen : Option Stream) :
    (∀ f, StreamCall.fclose f ∈ (stream descriptor file fileno fdopen).2 ↔ file = some f ∧ f ≠ .stderr ∧ f ≠ .stdout ∧ fileno f ≠ 2 ∧ fileno f ≠ 1 ∧ fileno f ≠ descriptor) ∧
    (∀ d, StreamCall.fdopen d ∈ (stream descriptor file fileno fdopen).2 ↔ d = descriptor ∧ (∀ f, file = some f → fileno f ≠ descriptor) ∧ fileno .stderr ≠ descriptor ∧ fileno .stdout ≠ descriptor) := by
  cases file with
  | none =>
    simp only [stream]
    by_cases h1 : descriptor = fileno .stderr
    · simp [h1]
    · by_cases h2 : descriptor = fileno .stdout
      · rw [if_neg h1, if_pos h2]; simp [h2]
      · simp [h1, h2, Ne.symm h1, Ne.symm h2]
  | some g =>
    simp only [stream]
    by_cases h0 : descriptor = fileno g
    · simp [h0]
    · rw [if_neg h0]
      have last : ∀ l : List StreamCall, (∀ d, StreamCall.fdopen d ∉ l) →
          (∀ f, StreamCall.fclose f ∈ (if descriptor = fileno .stderr then (some Stream.stderr, l) else if descriptor = fileno .stdout then (some .stdout, l) else (fdopen, l ++ [.fdopen descriptor])).2 ↔ .fclose f ∈ l) ∧
          ∀ d, StreamCall.fdopen d ∈ (if descriptor = fileno .stderr then (some Stream.stderr, l) else if descriptor = fileno .stdout then (some .stdout, l) else (fdopen, l ++ [.fdopen descriptor])).2 ↔
            d = descriptor ∧ (∀ f, some g = some f → fileno f ≠ descriptor) ∧ fileno .stderr ≠ descriptor ∧ fileno .stdout ≠ descriptor := by
        intro l hl
        by_cases h1 : descriptor = fileno .stderr
        · simp [h1, hl]
        · by_cases h2 : descriptor = fileno .stdout
          · rw [if_neg h1, if_pos h2]; simp [h2, hl]
          · simp [h1, h2, Ne.symm h1, Ne.symm h2, hl, Ne.symm h0]
      by_cases c1 : g = .stderr
      · subst c1; simp; obtain ⟨l1, l2⟩ := last [] (by simp)
        exact ⟨fun f => by have := l1 f; simp at this; simp [this]; intro h1 h2; exact absurd h1.symm h2, fun d => by have := l2 d; simp at this; simpa using this⟩
      · by_cases c2 : g = .stdout
        · subst c2; simp; obtain ⟨l1, l2⟩ := last [] (by simp)
          exact ⟨fun f => by have := l1 f; simp at this; simp [this]; intro h1 h2 h3; exact absurd h1.symm h3, fun d => by have := l2 d; simp at this; simpa using this⟩
        · by_cases c3 : fileno g = 2
          · simp [c1, c2, c3]; obtain ⟨l1, l2⟩ := last [] (by simp)
            exact ⟨fun f => by have := l1 f; simp at this; simp [this]; rintro rfl _ _ h; exact absurd c3 h, fun d => by have := l2 d; simp at this; simpa [c3] using this⟩
          · by_cases c4 : fileno g = 1
            · simp [c1, c2, c4]; obtain ⟨l1, l2⟩ := last [] (by simp)
              exact ⟨fun f => by have := l1 f; simp at this; simp [this]; rintro rfl _ _ _ h; exact absurd c4 h, fun d => by have := l2 d; simp at this; simpa [c4] using this⟩
            · simp only [if_neg c1, if_neg c2, if_neg c3, if_neg c4]
              obtain ⟨l1, l2⟩ := last [.fclose g] (by simp)
              refine ⟨fun f => ?_, l2⟩
              rw [l1 f]
              simp only [List.mem_singleton, StreamCall.fclose.injEq, Option.some.injEq]
              constructor
              · rintro rfl; exact ⟨rfl, c1, c2, c3, c4, fun h => h0 h.symm⟩
              · rintro ⟨rfl, -⟩; rfl

/-- The descriptor has been changed from 5 to 6. -/
example : stream 6 (some (.other 0)) (fun f => match f with | .stderr => 2 | .stdout => 1 | .other n => 5 + n) (some (.other 1)) = (some (.other 1), [.fclose (.other 0), .fdopen 6]) := by decide

end Diminuto.Log
