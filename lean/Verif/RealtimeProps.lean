import Verif.Realtime
import Verif.NumberLemmas

/-!
# Properties of the Realtime feature
-/

namespace Diminuto.Realtime

open Number (White Sign Denotes Ends IsDigit)

/-- The file begins with white space, a sign, and decimal digits, as many as there are; this is the number. -/
def Holds (bytes : List Byte) (v : Int) : Prop :=
  ∃ w g t r negative n, bytes = w ++ (g ++ (t ++ r)) ∧ (∀ b ∈ w, White b) ∧ Sign g negative ∧ Denotes 10 t n ∧ Ends 10 r ∧ v = if negative then -(n : Int) else (n : Int)

theorem digit_not_white {b : Byte} {v : Nat} (h : IsDigit 10 b v) : ¬ White b := by
  rcases h with ⟨h1, h2⟩
  intro hw
  rcases hw with hw | hw <;> omega

theorem fscanf_reads {s : Stream} {w g t r : List Byte} {negative : Bool} {n : Nat} (hb : s.bytes = w ++ (g ++ (t ++ r))) (hw : ∀ b ∈ w, White b) (hg : Sign g negative) (hd : Denotes 10 t n) (he : Ends 10 r) :
    fscanf s = .value (convert negative n) := by
  obtain ⟨b, t', d, ht, hdig⟩ := Number.denotes_head hd
  have hbr : 48 ≤ b.toNat ∧ b.toNat ≤ 57 := by rcases hdig with ⟨h1, h2⟩; omega
  have hdrop : s.bytes.dropWhile Number.isSpace = g ++ (t ++ r) := by
    rw [hb]
    apply Number.drop_white hw
    intro c u hc hwc
    cases hg with
    | none =>
      rw [ht] at hc
      simp only [List.nil_append, List.cons_append, List.cons.injEq] at hc
      rw [← hc.1] at hwc
      exact digit_not_white hdig hwc
    | plus =>
      simp only [List.cons_append, List.cons.injEq] at hc
      rw [← hc.1] at hwc
      rcases hwc with h | h
      · exact absurd h (by decide)
      · exact absurd h (by decide)
    | minus =>
      simp only [List.cons_append, List.cons.injEq] at hc
      rw [← hc.1] at hwc
      rcases hwc with h | h
      · exact absurd h (by decide)
      · exact absurd h (by decide)
  have hsign : Number.sign (g ++ (t ++ r)) = (negative, t ++ r) := by
    cases hg with
    | none =>
      rw [ht]
      unfold Number.sign
      have h45 : b ≠ 45#8 := by intro h; rw [h] at hbr; exact absurd hbr (by decide)
      have h43 : b ≠ 43#8 := by intro h; rw [h] at hbr; exact absurd hbr (by decide)
      simp [h45, h43]
    | plus => rfl
    | minus => rfl
  have hdigits : Number.digits 10 0 0 (t ++ r) = (t.length, n, r) := by
    rw [Number.digits_denotes (by decide) hd, Number.digits_end (by decide) he]
    simp
  have hne : g ++ (t ++ r) ≠ [] := by rw [ht]; simp
  have hlen : t.length ≠ 0 := by rw [ht]; simp
  unfold fscanf
  simp only [hdrop, if_neg hne, hsign, hdigits, if_neg hlen]

theorem fscanf_holds {s : Stream} {v : Int} (h : Holds s.bytes v) (h1 : -2 ^ 31 ≤ v) (h2 : v < 2 ^ 31) : fscanf s = .value v := by
  obtain ⟨w, g, t, r, negative, n, hb, hw, hg, hd, he, hv⟩ := h
  rw [fscanf_reads hb hw hg hd he]
  congr 1
  unfold convert
  have hlong : (if negative then (if n ≤ 2 ^ 63 then -(n : Int) else -2 ^ 63) else (if n < 2 ^ 63 then (n : Int) else 2 ^ 63 - 1)) = v := by
    cases negative
    · simp only [Bool.false_eq_true, if_false] at hv ⊢
      rw [if_pos (by omega), hv]
    · simp only [if_true] at hv ⊢
      rw [if_pos (by omega), hv]
  simp only [hlong]
  rw [BitVec.toInt_ofInt]
  unfold Int.bmod
  simp only [Nat.reducePow]
  omega

theorem drop_split (s : List Byte) : ∃ w, s = w ++ s.dropWhile Number.isSpace ∧ ∀ b ∈ w, White b := by
  refine ⟨s.takeWhile Number.isSpace, (List.takeWhile_append_dropWhile).symm, ?_⟩
  intro b hb
  exact (Number.white_iff b).mp (List.all_eq_true.mp List.all_takeWhile b hb)

theorem sign_split (t : List Byte) : ∃ g, t = g ++ (Number.sign t).2 ∧ Sign g (Number.sign t).1 := by
  unfold Number.sign
  cases t with
  | nil => exact ⟨[], rfl, .none⟩
  | cons b t =>
    by_cases h1 : b = 45#8
    · subst h1
      exact ⟨[45#8], rfl, .minus⟩
    · by_cases h2 : b = 43#8
      · subst h2
        exact ⟨[43#8], rfl, .plus⟩
      · refine ⟨[], ?_, ?_⟩ <;> simp [h1, h2]
        exact .none

theorem fscanf_value {s : Stream} {v : Int} (h : fscanf s = .value v) : ∃ u, Holds s.bytes u := by
  unfold fscanf at h
  simp only [] at h
  split at h
  · nomatch h
  · split at h
    · nomatch h
    · rename_i hc
      rcases hdig : Number.digits 10 0 0 (Number.sign (s.bytes.dropWhile Number.isSpace)).2 with ⟨c, n, r⟩
      rw [hdig] at hc
      obtain ⟨he, t, ht, hor⟩ := Number.digits_spec (by decide) _ _ _ _ _ _ hdig
      rcases hor with ⟨_, hz, _⟩ | ⟨m, hd, _, _⟩
      · exact absurd hz hc
      · obtain ⟨w, hw, hwhite⟩ := drop_split s.bytes
        obtain ⟨g, hg, hsign⟩ := sign_split (s.bytes.dropWhile Number.isSpace)
        refine ⟨_, w, g, t, r, _, m, ?_, hwhite, hsign, hd, he, rfl⟩
        rw [← ht, ← hg]
        exact hw

theorem fscanf_eof (s : Stream) : fscanf s = .eof ↔ ∀ b ∈ s.bytes, White b := by
  have h1 : fscanf s = .eof ↔ s.bytes.dropWhile Number.isSpace = [] := by
    unfold fscanf
    simp only []
    split
    · simp [*]
    · split <;> simp [*]
  rw [h1]
  constructor
  · intro h
    obtain ⟨w, hw, hwhite⟩ := drop_split s.bytes
    rw [h, List.append_nil] at hw
    rw [hw]
    exact hwhite
  · intro h
    have := Number.drop_white (w := s.bytes) (x := []) h (by intro b t hb; nomatch hb)
    rwa [List.append_nil] at this

/-- glibc. -/
def glibc : Int → Int := fun _ => 0

/-- A library that does not set `errno` to zero, as it must not. -/
def posix : Int → Int := id

/-- C120.  If the file begins with a number, in decimal, possibly after white space and with a sign, and this is one that an `int` can have, the feature is supported exactly if the number is greater than zero, whatever follows it, whatever `errno` was, and whether or not the file can be read further. -/
theorem realtime_number_partial (library : Int → Int) {s : Stream} {v : Int} (h : Holds s.bytes v) (h1 : -2 ^ 31 ≤ v) (h2 : v < 2 ^ 31) (errno : Int) :
    isSupportedFp library (some s) errno = if 0 < v then 1 else 0 := by
  simp only [isSupportedFp, fscanf_holds h h1 h2]
  by_cases hv : 0 < v
  · rw [if_pos hv, if_neg (by omega)]
  · rw [if_neg hv, if_pos (by omega)]

example : Holds [49#8, 10#8] 1 ∧ isSupportedFp glibc (some ⟨[49#8, 10#8], none⟩) 5 = 1 := by
  refine ⟨⟨[], [], [49#8], [10#8], false, 1, rfl, (by intro b h; nomatch h), .none, .one ⟨by decide, Or.inl ⟨by decide, rfl⟩⟩, ?_, rfl⟩, by decide⟩
  intro b t v hb hd
  cases hb
  obtain ⟨_, hd⟩ := hd
  have : (10#8).toNat = 10 := rfl
  omega

/-- C120.  The upper half of a number that an `int` cannot have is dropped: for 4294967297 the feature is supported, and for 4294967296 it is not. -/
theorem realtime_number_counterexample :
    isSupportedFp glibc (some ⟨[52#8, 50#8, 57#8, 52#8, 57#8, 54#8, 55#8, 50#8, 57#8, 55#8], none⟩) 0 = 1 ∧
      isSupportedFp glibc (some ⟨[52#8, 50#8, 57#8, 52#8, 57#8, 54#8, 55#8, 50#8, 57#8, 54#8], none⟩) 0 = 0 := by decide

/-- C120.  A file with something else in it than a number is not an error: the feature is not supported. -/
theorem realtime_other (library : Int → Int) {s : Stream} (h1 : ∃ b ∈ s.bytes, ¬ White b) (h2 : ∀ v, ¬ Holds s.bytes v) (errno : Int) : isSupportedFp library (some s) errno = 0 := by
  cases hs : fscanf s with
  | value v =>
    obtain ⟨u, hu⟩ := fscanf_value hs
    exact absurd hu (h2 u)
  | mismatch => simp only [isSupportedFp, hs]
  | eof =>
    obtain ⟨b, hb, hw⟩ := h1
    exact absurd ((fscanf_eof s).mp hs b hb) hw

/-- C120.  If the file cannot be read, and there is no more than white space before, it is an error. -/
theorem realtime_error (library : Int → Int) {s : Stream} (h : ∀ b ∈ s.bytes, White b) {e : Int} (he : s.error = some e) (h0 : e ≠ 0) (errno : Int) : isSupportedFp library (some s) errno = -1 := by
  simp only [isSupportedFp, (fscanf_eof s).mpr h, eofErrno, he, if_neg h0]

example : isSupportedFp posix (some ⟨[], some 5⟩) 0 = -1 ∧ isSupportedFp glibc (some ⟨[45#8, 120#8], none⟩) 0 = 0 := by decide

/-- C120.  If there is nothing but white space in the file, the feature is not supported, if the library sets `errno` to zero, as glibc does, or if it was zero. -/
theorem realtime_empty_partial (library : Int → Int) {s : Stream} (h : ∀ b ∈ s.bytes, White b) (he : s.error = none) (errno : Int) (h0 : library errno = 0) : isSupportedFp library (some s) errno = 0 := by
  simp only [isSupportedFp, (fscanf_eof s).mpr h, eofErrno, he, if_pos h0]

example : glibc 2 = 0 ∧ isSupportedFp glibc (some ⟨[32#8], none⟩) 2 = 0 := by decide

/-- C120.  Otherwise the value depends on what has happened before: `errno` is not set to zero before the file is read, and the same empty file is an error or not. -/
theorem realtime_empty_counterexample : ∃ a b, isSupportedFp posix (some ⟨[], none⟩) a ≠ isSupportedFp posix (some ⟨[], none⟩) b := ⟨0, 2, by decide⟩

/-- C120.  With a path: a file that has been opened is closed, and no other; a path that is null is an error, one for which there is no file is not; any other failure to open or close is an error, and otherwise it is what the file says. -/
theorem realtime_path {Path : Type} (fopen : Path → Fopen) (fclose : Bool) (library : Int → Int) (errno : Int) (path : Option Path) :
    ((isSupportedPath fopen fclose library errno path).2.1 = (isSupportedPath fopen fclose library errno path).2.2) ∧
      (path = none → (isSupportedPath fopen fclose library errno path).1 = -1) ∧
      (∀ p e, path = some p → fopen p = .error e → (isSupportedPath fopen fclose library errno path).1 = if e = 2 then 0 else -1) ∧
      (∀ p s, path = some p → fopen p = .file s → (isSupportedPath fopen fclose library errno path).2.1 = true ∧
        (isSupportedPath fopen fclose library errno path).1 = if fclose = true then isSupportedFp library (some s) errno else -1) := by
  refine ⟨?_, ?_, ?_, ?_⟩
  · cases path with
    | none => rfl
    | some p =>
      unfold isSupportedPath
      simp only []
      cases fopen p <;> rfl
  · intro h; subst h; rfl
  · intro p e h hf
    subst h
    simp only [isSupportedPath, hf, ENOENT]
    rfl
  · intro p s h hf
    subst h
    simp only [isSupportedPath, hf]
    exact ⟨trivial, trivial⟩

example : isSupportedPath (fun n : Nat => if n = 0 then .error 2 else if n = 1 then .error 13 else .file ⟨[49#8], none⟩) true glibc 0 (some 2) = (1, true, true) := by decide

/-- C120.  A null pointer to a file is an error. -/
theorem realtime_null (library : Int → Int) (errno : Int) : isSupportedFp library none errno = -1 := rfl

end Diminuto.Realtime
