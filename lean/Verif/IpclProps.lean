import Verif.IpclLemmas

/-!
# Properties of the paths and addresses of local sockets
-/

namespace Diminuto.Ipcl

/-! ## Resolution -/

/-- The full claim, that a path is resolved exactly if it names a socket whose canonical path fits into the buffer, and to that path: for paths that are not right
below the root. -/
theorem ipcl_path_partial (realpath : List Byte → Option (List Byte)) (hr : Absolute realpath) (p : List Byte) (h0 : 0#8 ∉ p) (hp : p ≠ [])
    (hroot : ¬ Canonical.Root p) (buffer : List Byte) :
    (∃ r, path realpath p buffer = some r) ∧
    (∀ b, path realpath p buffer = some (some b) → b.length = buffer.length) ∧
    (∀ s, (∃ b, path realpath p buffer = some (some b) ∧ Holds b s) ↔ p.length < 4096 ∧ Names realpath p s ∧ s.length < buffer.length) := by
  have hne : ∀ p q, realpath p = some q → q ≠ [] := fun p q h => by
    obtain ⟨-, r, rfl⟩ := hr p q h
    simp
  unfold path
  by_cases hb : buffer.length ≤ 0
  · rw [if_pos hb]
    refine ⟨⟨_, rfl⟩, fun b h => (by cases h), fun s => ⟨fun ⟨b, h, _⟩ => (by cases h), fun ⟨_, _, h⟩ => (by omega)⟩⟩
  rw [if_neg hb, if_neg hp]
  by_cases hlen : p.length < 4096
  · obtain ⟨dir, file, hs, he⟩ := Canonical.canonicalize_exact_partial realpath hne p LOCAL hlen hp hroot
    have huniq : ∀ dir' file', Canonical.Splits p dir' file' → dir = dir' ∧ file = file' := fun _ _ h => Canonical.canonicalize_splits_unique hs h hp hlen
    rw [he]
    unfold Canonical.expected
    cases hd : realpath dir with
    | none =>
      refine ⟨⟨_, rfl⟩, fun b h => (by cases h), fun s => ⟨fun ⟨b, h, _⟩ => (by cases h), fun ⟨_, ⟨d, f, pre, h1, _, h2, _⟩, _⟩ => ?_⟩⟩
      obtain ⟨rfl, rfl⟩ := huniq _ _ h1
      rw [hd] at h2
      cases h2
    | some pre =>
      obtain ⟨hpre, t, ht⟩ := hr dir pre hd
      simp only []
      have hsz : LOCAL = 255 := rfl
      rw [hsz]
      by_cases hl : 255 ≤ 1 + pre.length + file.length
      · rw [if_pos hl]
        refine ⟨⟨_, rfl⟩, fun b h => (by cases h), fun s => ⟨fun ⟨b, h, _⟩ => (by cases h), fun ⟨_, ⟨d, f, pre', h1, _, h2, h3, _⟩, _⟩ => ?_⟩⟩
        obtain ⟨rfl, rfl⟩ := huniq _ _ h1
        rw [hd] at h2
        cases h2
        omega
      · rw [if_neg hl]
        simp only [below_eq, getLast_index]
        have hbl := below_length pre file
        have hpl : 1 ≤ pre.length := by rw [ht, List.length_cons]; omega
        by_cases hf : file = []
        · -- there is no file
          subst hf
          have : ∀ x : Option (Option (List Byte)), (if (below pre []).length < 2 then some none else if (below pre []).getLast? = some 47#8 then some none else x) = some none := by
            intro x
            rw [below_last_nil]
            split <;> simp
          rw [this]
          refine ⟨⟨_, rfl⟩, fun b h => (by cases h), fun s => ⟨fun ⟨b, h, _⟩ => (by cases h), fun ⟨_, ⟨d, f, pre', h1, h4, _⟩, _⟩ => ?_⟩⟩
          exact absurd (huniq _ _ h1).2.symm h4
        · have hfl : 1 ≤ file.length := List.length_pos_iff.2 hf
          have hff : 47#8 ∉ file := splits_file hs
          rw [if_neg (by omega), if_neg (by rw [below_last_file hf]; exact last_slash hff)]
          have hnul : 0#8 ∉ below pre file := by
            have h2 : 0#8 ∉ file := by
              intro h
              apply h0
              cases hs with
              | plain _ _ => exact h
              | directory _ _ _ _ _ => cases h
              | nominal _ _ _ _ _ => exact List.mem_append_right _ (List.mem_cons_of_mem _ h)
            unfold below
            split
            · intro h
              rcases List.mem_append.1 h with h | h
              · exact hpre h
              · exact h2 h
            · intro h
              rcases List.mem_append.1 h with h | h
              · exact hpre h
              · rcases List.mem_cons.1 h with h | h
                · exact absurd h (by decide)
                · exact h2 h
          by_cases hc : (below pre file).length ≥ buffer.length
          · rw [if_pos hc]
            refine ⟨⟨_, rfl⟩, fun b h => (by cases h), fun s => ⟨fun ⟨b, h, _⟩ => (by cases h), fun ⟨_, ⟨d, f, pre', h1, _, h2, _, h3⟩, h4⟩ => ?_⟩⟩
            obtain ⟨rfl, rfl⟩ := huniq _ _ h1
            rw [hd] at h2
            cases h2
            subst h3
            omega
          · rw [if_neg hc]
            have hh := strncpyz_holds (n := buffer.length) (by omega) hnul
            rw [List.take_of_length_le (by omega)] at hh
            refine ⟨⟨_, rfl⟩, fun b h => ?_, fun s => ⟨fun ⟨b, h, hs'⟩ => ?_, fun ⟨_, ⟨d, f, pre', h1, _, h2, _, h3⟩, h4⟩ => ?_⟩⟩
            · cases h
              exact strncpyz_length _ _
            · cases h
              obtain rfl := holds_unique hh hs'
              exact ⟨hlen, ⟨dir, file, pre, hs, hf, hd, by omega, rfl⟩, by omega⟩
            · obtain ⟨rfl, rfl⟩ := huniq _ _ h1
              rw [hd] at h2
              cases h2
              subst h3
              exact ⟨_, rfl, hh⟩
  · rw [Canonical.canonicalize_refused realpath p LOCAL (.inr (show 4096 ≤ p.length by omega))]
    exact ⟨⟨_, rfl⟩, fun b h => (by cases h), fun s => ⟨fun ⟨b, h, _⟩ => (by cases h), fun ⟨h, _⟩ => absurd h hlen⟩⟩

/-- `a/b` in the directory `/x`. -/
example : Names (fun p => if p = [97#8, 47#8] then some [47#8, 120#8] else none) [97#8, 47#8, 98#8] [47#8, 120#8, 47#8, 98#8] :=
  ⟨[97#8, 47#8], [98#8], [47#8, 120#8], .nominal [97#8] [98#8] (by decide) (by decide) (by decide), by decide, by decide, by decide, by decide⟩

/-- The name of a socket is an absolute path that does not end with a slash, and is not that of the root. -/
theorem ipcl_path_absolute (realpath : List Byte → Option (List Byte)) (hr : Absolute realpath) {p s : List Byte} (h : Names realpath p s) :
    (∃ t, s = 47#8 :: t ∧ t ≠ []) ∧ s.getLast? ≠ some 47#8 ∧ s.length < 255 := by
  obtain ⟨dir, file, pre, hs, hf, hd, hl, rfl⟩ := h
  obtain ⟨-, t, ht⟩ := hr dir pre hd
  have hb := below_length pre file
  refine ⟨?_, ?_, by omega⟩
  · subst ht
    unfold below
    split
    · exact ⟨t ++ file, rfl, by simp [hf]⟩
    · exact ⟨t ++ 47#8 :: file, rfl, by simp⟩
  · rw [below_last_file hf]
    exact last_slash (splits_file hs)

/-- The empty path is that of the unnamed socket. -/
theorem ipcl_path_unnamed (realpath : List Byte → Option (List Byte)) (buffer : List Byte) (hb : buffer ≠ []) :
    ∃ b, path realpath [] buffer = some (some b) ∧ Holds b [] ∧ b.length = buffer.length := by
  unfold path
  rw [if_neg (by have := List.length_pos_iff.2 hb; omega), if_pos rfl]
  refine ⟨_, rfl, ⟨by simp, ?_⟩, List.length_set⟩
  cases buffer with
  | nil => exact absurd rfl hb
  | cons c r => exact ⟨r, rfl⟩

/-- The full claim is false: a path right below the root is undefined behaviour. -/
theorem ipcl_path_root_counterexample (realpath : List Byte → Option (List Byte)) (file : List Byte) (hf : 47#8 ∉ file) (hl : file.length < 254)
    (buffer : List Byte) (hb : buffer ≠ []) : path realpath (47#8 :: file) buffer = none := by
  unfold path
  rw [if_neg (by have := List.length_pos_iff.2 hb; omega), if_neg (by simp),
    Canonical.canonicalize_root_counterexample realpath file hf LOCAL (by rw [List.length_cons]; show _ < 4096; omega) (by show _ < 255; omega)]

/-- A name that has been resolved is resolved to itself, if its directory is, and that is not the root. -/
theorem ipcl_path_idempotent_partial (realpath : List Byte → Option (List Byte)) {p s : List Byte} (h : Names realpath p s)
    (hd : ∀ q pre, realpath q = some pre → pre.getLast? ≠ some 47#8 ∧ pre ≠ [] ∧ realpath (pre ++ [47#8]) = some pre)
    (hdot : ∀ dir file, Canonical.Splits p dir file → ¬ (file = [46#8] ∨ file = [46#8, 46#8])) : Names realpath s s := by
  obtain ⟨dir, file, pre, hs, hf, hr, hl, rfl⟩ := h
  obtain ⟨h1, h2, h3⟩ := hd dir pre hr
  have hdot := hdot dir file hs
  have : below pre file = pre ++ 47#8 :: file := by unfold below; rw [if_neg h1]
  refine ⟨pre ++ [47#8], file, pre, ?_, hf, h3, hl, rfl⟩
  rw [this]
  exact .nominal pre file (splits_file hs) (fun h => by
    rcases h with h | h
    · exact hf h
    · exact hdot h) h2

/-- The hypotheses hold for `a/b` in the directory `/x`. -/
example : let realpath : List Byte → Option (List Byte) := fun _ => some [47#8, 120#8]
    Names realpath [97#8, 47#8, 98#8] [47#8, 120#8, 47#8, 98#8] ∧ (∀ q pre, realpath q = some pre → pre.getLast? ≠ some 47#8 ∧ pre ≠ [] ∧ realpath (pre ++ [47#8]) = some pre) ∧
    Names realpath [47#8, 120#8, 47#8, 98#8] [47#8, 120#8, 47#8, 98#8] := by
  refine ⟨⟨[97#8, 47#8], [98#8], [47#8, 120#8], .nominal [97#8] [98#8] (by decide) (by decide) (by decide), by decide, rfl, by decide, by decide⟩,
    fun q pre h => ?_, ⟨[47#8, 120#8, 47#8], [98#8], [47#8, 120#8], .nominal [47#8, 120#8] [98#8] (by decide) (by decide) (by decide), by decide, rfl, by decide, by decide⟩⟩
  cases h
  exact ⟨by decide, by decide, rfl⟩

/-- A name need not be canonical: `..` names what is not a file in the working directory. -/
theorem ipcl_path_dots_counterexample : Names (fun _ => some [47#8, 120#8]) [46#8, 46#8] [47#8, 120#8, 47#8, 46#8, 46#8] :=
  ⟨[46#8], [46#8, 46#8], [47#8, 120#8], .plain _ (by decide), by decide, rfl, by decide, by decide⟩

/-! ## Printing -/

/-- What is printed for a path: its canonical path, nothing for the unnamed socket, and an asterisk if it cannot be resolved or does not fit. -/
theorem ipcl_path2string_partial (realpath : List Byte → Option (List Byte)) (hr : Absolute realpath) (p : Option (List Byte)) (h0 : ∀ q, p = some q → 0#8 ∉ q)
    (hroot : ∀ q, p = some q → ¬ Canonical.Root q) (buffer : List Byte) :
    ∃ b, path2string realpath p buffer = some b ∧ b.length = buffer.length ∧
      (buffer.length = 1 → Holds b []) ∧
      (1 < buffer.length → p = some [] → Holds b []) ∧
      (1 < buffer.length → ∀ q s, p = some q → q ≠ [] → q.length < 4096 → Names realpath q s → s.length < buffer.length → Holds b s) ∧
      (1 < buffer.length → p = none → Holds b [42#8]) ∧
      (1 < buffer.length → ∀ q, p = some q → q ≠ [] → (∀ s, Names realpath q s → buffer.length ≤ s.length) → Holds b [42#8]) := by
  unfold path2string
  by_cases hb0 : buffer.length = 0
  · rw [if_pos hb0]
    exact ⟨_, rfl, rfl, fun h => (by omega), fun h => (by omega), fun h => (by omega), fun h => (by omega), fun h => by omega⟩
  rw [if_neg hb0]
  by_cases hb1 : buffer.length = 1
  · rw [if_pos hb1]
    refine ⟨_, rfl, List.length_set, fun _ => ⟨by simp, ?_⟩, fun h => (by omega), fun h => (by omega), fun h => (by omega), fun h => by omega⟩
    cases buffer with
    | nil => exact absurd rfl hb0
    | cons c r => exact ⟨r, rfl⟩
  rw [if_neg hb1]
  have hstar : Holds ((buffer.set 0 42#8).set 1 0#8) [42#8] ∧ ((buffer.set 0 42#8).set 1 0#8).length = buffer.length := by
    refine ⟨⟨by decide, ?_⟩, by rw [List.length_set, List.length_set]⟩
    match buffer with
    | [] => exact absurd rfl hb0
    | [c] => exact absurd rfl hb1
    | c :: d :: r => exact ⟨r, rfl⟩
  cases p with
  | none =>
    exact ⟨_, rfl, hstar.2, fun h => absurd h hb1, fun _ h => (by cases h), fun _ q s h => (by cases h), fun _ _ => hstar.1, fun _ q h => (by cases h)⟩
  | some q =>
    by_cases hq : q = []
    · subst hq
      obtain ⟨b, h1, h2, h3⟩ := ipcl_path_unnamed realpath buffer (fun h => hb0 (by rw [h]; rfl))
      simp only [h1]
      exact ⟨_, rfl, h3, fun h => absurd h hb1, fun _ _ => h2, fun _ q s h hn => (by cases h; exact absurd rfl hn), fun _ h => (by cases h),
        fun _ q h hn => (by cases h; exact absurd rfl hn)⟩
    · obtain ⟨⟨r, hres⟩, hlen, hiff⟩ := ipcl_path_partial realpath hr q (h0 q rfl) hq (hroot q rfl) buffer
      cases r with
      | none =>
        simp only [hres]
        refine ⟨_, rfl, hstar.2, fun h => absurd h hb1, fun _ h => (by cases h; exact absurd rfl hq), fun _ q' s h _ hl hn hsl => ?_, fun _ h => (by cases h), fun _ _ _ _ _ => hstar.1⟩
        cases h
        obtain ⟨b, hb, -⟩ := (hiff s).2 ⟨hl, hn, hsl⟩
        rw [hres] at hb
        cases hb
      | some b =>
        simp only [hres]
        refine ⟨_, rfl, hlen b hres, fun h => absurd h hb1, fun _ h => (by cases h; exact absurd rfl hq), fun _ q' s h _ hl hn hsl => ?_, fun _ h => (by cases h), fun _ q' h _ hn => ?_⟩
        · cases h
          obtain ⟨b', hb, hh⟩ := (hiff s).2 ⟨hl, hn, hsl⟩
          rw [hres] at hb
          cases hb
          exact hh
        · cases h
          have hb : ∃ s, Holds b s := by
            unfold path at hres
            rw [if_neg (by omega), if_neg hq] at hres
            split at hres <;> try (cases hres; done)
            split at hres <;> try (cases hres; done)
            split at hres <;> try (cases hres; done)
            split at hres <;> try (cases hres; done)
            rename_i c _ _ _ _
            cases hres
            have : 0#8 ∈ strncpyz buffer.length c := by
              unfold strncpyz
              apply List.mem_iff_getElem.2
              exact ⟨buffer.length - 1, by rw [List.length_set, strncpy_length]; omega, by simp⟩
            exact holds_exists this
          obtain ⟨s, hs⟩ := hb
          obtain ⟨h1, h2, h3⟩ := (hiff s).1 ⟨b, hres, hs⟩
          have := hn s h2
          omega

/-- The full claim is false: printing a path right below the root, such as an endpoint may have, is undefined behaviour. -/
theorem ipcl_path2string_counterexample : path2string (fun _ => some [47#8]) (some [47#8, 120#8]) (List.replicate 10 0#8) = none ∧
    path (fun _ => some [47#8]) [46#8, 47#8, 120#8] (List.replicate 10 0#8) = some (some (strncpyz 10 [47#8, 120#8])) := by decide

/-! ## Addresses -/

/-- The full claim, that the address of a socket has its path: for paths of up to 107 characters the address holds the path, and no other path of up to 108
characters has the same address. -/
theorem ipcl_address_partial (p : List Byte) (h0 : 0#8 ∉ p) :
    (address p).length = 108 ∧ (p.length ≤ 107 → Holds (address p) p) ∧
    (p.length ≤ 108 → ∀ q, 0#8 ∉ q → q.length ≤ 108 → address p = address q → p = q) := by
  refine ⟨strncpy_length _ _, fun h => ⟨h0, ?_⟩, fun h q h1 hq e => take_eq_of_strncpy h hq h0 h1 e⟩
  exact ⟨_, strncpy_short (by show p.length < 108; omega)⟩

example : 0#8 ∉ List.replicate 107 97#8 ∧ (List.replicate 107 97#8).length ≤ 107 := by decide

/-- The full claim is false: of a longer path only the first 108 characters are in the address, without an error, so a socket is bound or connected to another
path; that is also the address of that path. -/
theorem ipcl_address_counterexample (p : List Byte) (h : 108 < p.length) : address p = p.take 108 ∧ address p = address (p.take 108) ∧ p.take 108 ≠ p := by
  have e : address p = p.take 108 := by
    unfold address strncpy
    rw [show SUN = 108 from rfl, show 108 - p.length = 0 by omega]
    simp
  refine ⟨e, ?_, fun h' => ?_⟩
  · have hl : (p.take 108).length = 108 := by rw [List.length_take]; omega
    rw [e]
    unfold address strncpy
    rw [show SUN = 108 from rfl, hl, Nat.sub_self, List.take_take]
    simp
  · have := congrArg List.length h'
    rw [List.length_take] at this
    omega

/-- There are such paths, and they are accepted: one in the directory `/x`. -/
theorem ipcl_address_accepted_counterexample : ∃ p s : List Byte, Names (fun _ => some [47#8, 120#8]) p s ∧ 108 < s.length := by
  refine ⟨List.replicate 200 97#8, [47#8, 120#8] ++ 47#8 :: List.replicate 200 97#8, ⟨[46#8], List.replicate 200 97#8, [47#8, 120#8], .plain _ ?_, ?_, rfl, ?_, ?_⟩, ?_⟩
  · exact fun h => absurd (List.eq_of_mem_replicate h) (by decide)
  · decide
  · rw [List.length_replicate]; decide
  · unfold below
    rw [if_neg (by decide)]
  · rw [List.length_append, List.length_cons (a := 47#8) (as := List.replicate 200 97#8), List.length_replicate]; decide

/-- What is extracted from the address of a path is the path, as much as fits. -/
theorem ipcl_identify_partial (p : List Byte) (h0 : 0#8 ∉ p) (hl : p.length ≤ 107) (buffer : List Byte) (hb : buffer ≠ []) :
    ∃ b, identify true (address p) (some buffer) = some (0, some b) ∧ b.length = buffer.length ∧ Holds b (p.take (buffer.length - 1)) := by
  have hpos := List.length_pos_iff.2 hb
  obtain ⟨-, h1, -⟩ := ipcl_address_partial p h0
  have hh := h1 hl
  unfold identify
  rw [if_neg (by decide)]
  simp only []
  rw [if_neg (by omega), if_neg (by
    rintro ⟨hn, -⟩
    obtain ⟨-, t, ht⟩ := hh
    rw [ht] at hn
    exact hn (List.mem_append_right _ (List.mem_cons_self ..)))]
  have : (address p).takeWhile (· ≠ 0#8) = p := holds_text hh
  rw [this]
  exact ⟨_, rfl, strncpyz_length _ _, strncpyz_holds hpos h0⟩

/-- Nothing is extracted from an address of another family, or if nothing is asked for. -/
theorem ipcl_identify_none (sun : List Byte) (pathp : Option (List Byte)) :
    identify false sun pathp = some (-1, pathp) ∧ identify true sun none = some (0, none) := ⟨rfl, rfl⟩

/-- The full claim is false: the address of a path of 108 characters, which the kernel accepts, is not terminated, and is read beyond its end if the buffer is larger
than it; and a buffer without a byte is written. -/
theorem ipcl_identify_counterexample (p : List Byte) (h0 : 0#8 ∉ p) (buffer : List Byte) :
    (p.length = 108 → 108 < buffer.length → identify true (address p) (some buffer) = none) ∧ identify true (address p) (some []) = none := by
  refine ⟨fun h hb => ?_, rfl⟩
  have e : address p = p := by
    unfold address strncpy
    rw [show SUN = 108 from rfl, h, Nat.sub_self, List.take_of_length_le (by omega)]
    simp
  rw [e]
  unfold identify
  rw [if_neg (by decide)]
  simp only []
  rw [if_neg (by omega), if_pos ⟨h0, by omega⟩]

example : 0#8 ∉ List.replicate 108 97#8 ∧ (List.replicate 108 97#8).length = 108 := by decide

/-- A socket is bound unless the path is NULL, which is an error, or empty, which is none. -/
theorem ipcl_source (fd : Int) (p : Option (List Byte)) :
    (source fd p = .inl (-1) ↔ p = none ∨ (p = some [] ∧ fd = -1)) ∧ (p = some [] → source fd p = .inl fd) ∧ (∀ q, p = some q → q ≠ [] → source fd p = .inr (address q)) := by
  match p with
  | none => exact ⟨by simp [source], fun h => (by cases h), fun q h => (by cases h)⟩
  | some [] => exact ⟨by simp [source], fun _ => rfl, fun q h hq => (by cases h; exact absurd rfl hq)⟩
  | some (c :: r) => exact ⟨by simp [source], fun h => (by cases h), fun q h _ => (by cases h; rfl)⟩

/-! ## Comparison -/

/-- Paths are compared as strings: zero exactly if they are equal, negative if the first precedes the second, and the other way round. -/
theorem ipcl_compare (p q : List Byte) (hp : p.length < 4096) (hq : q.length < 4096) (h0 : 0#8 ∉ p) (h1 : 0#8 ∉ q) :
    (compare (some p) (some q) = 0 ↔ p = q) ∧ (compare (some p) (some q) < 0 ↔ Less p q) ∧ (0 < compare (some p) (some q) ↔ Less q p) := by
  refine ⟨strncmp_zero _ p q hp hq h0 h1, strncmp_less _ p q hp hq h0 h1, ?_⟩
  rw [← strncmp_less _ q p hq hp h1 h0, strncmp_neg]
  simp only [compare, Canonical.PATH]
  omega

example : Less [97#8] [97#8, 98#8] ∧ compare (some [97#8]) (some [97#8, 98#8]) = -98 := ⟨.tail .nil, by decide⟩

/-- NULL precedes every path; but it also precedes itself, so two null pointers are not equal. -/
theorem ipcl_compare_null_counterexample (p : List Byte) : compare none (some p) < 0 ∧ 0 < compare (some p) none ∧ compare none none ≠ 0 := by
  refine ⟨?_, ?_, ?_⟩ <;> simp [compare]

end Diminuto.Ipcl
