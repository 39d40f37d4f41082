import Verif.LineLemmas

/-!
# Properties of the lookup of GPIO lines
-/

namespace Diminuto.Line

/-! ## Finding -/

/-- If the file system and the controllers do not change, a line is found exactly if there is a character device at or below the root, whose name begins with the prefix, that has a line
with the name and with no line before it whose name cannot be got; then the path of such a device, as much of it as fits, and the offset of the line are stored, and otherwise nothing is. -/
theorem line_find (b : Board) (hb : b.Small) (wanted root pre : Name) {real : Name} (hr : b.real root = some real) (hs : Walker.Sound b.fs real) (hd : Walker.Distinct b.fs) (r : Result) :
    ∃ q, find b.world wanted root pre r () = some (q, ()) ∧ q.buffer.length = r.buffer.length ∧ q.inverted = r.inverted ∧
      (q.found = true ↔ ∃ p k, Offers b real pre wanted p k) ∧
      (q.found = true → ∃ p, Offers b real pre wanted p q.line.toNat ∧ text q.buffer = p.take (r.buffer.length - 1)) ∧
      (q.found = false → q.buffer = r.buffer ∧ q.line = r.line) := by
  obtain ⟨rc, path, f, hw, hc⟩ := walk_board b wanted pre hs hd
  unfold find
  rw [show b.world.realpath root = some real from hr, hw]
  simp only []
  rcases hc with ⟨rfl, hn⟩ | ⟨rfl, hf, v, hv, hm, hh⟩
  · rw [if_neg (by decide)]
    refine ⟨_, rfl, rfl, rfl, ⟨fun h => (by cases h), ?_⟩, fun h => (by cases h), fun _ => ⟨rfl, rfl⟩⟩
    rintro ⟨p, k, name, depth, mode, h1, h2, h3, h4, h5⟩
    have := hn ⟨name, p, depth, mode⟩ h1 h2
    unfold hit at this
    rw [if_pos ⟨h3, h4⟩] at this
    simp only [(chip_board b hb p wanted k).2 h5] at this
    cases this
  · rw [if_pos (by decide)]
    obtain ⟨⟨p, k⟩, rfl⟩ := Option.isSome_iff_exists.1 hf
    unfold hit at hh
    split at hh
    · rename_i hcp
      cases hch : (chip b.world v.path wanted ()).1 with
      | none => rw [hch] at hh; cases hh
      | some k' =>
        rw [hch] at hh
        simp only [Option.map_some, Option.some.injEq, Prod.mk.injEq] at hh
        obtain ⟨hp, rfl⟩ := hh
        have hca := (chip_board b hb _ _ _).1 hch
        have hlt := carries_lt b hb hca
        have hpp : v.path.take 4095 = v.path := List.take_of_length_le (by have := hs.short _ _ _ hv; omega)
        rw [hpp] at hp
        subst hp
        have ho : Offers b real pre wanted v.path k' := ⟨v.name, v.depth, v.mode, hv, hm, hcp.1, hcp.2, hca⟩
        have hk : (BitVec.ofNat 32 k').toNat = k' := by
          rw [BitVec.toNat_ofNat]
          omega
        refine ⟨_, rfl, strncpy_length _ _, rfl, ⟨fun _ => ⟨_, _, ho⟩, fun _ => rfl⟩, fun _ => ⟨v.path, ?_, ?_⟩, fun h => (by cases h)⟩
        · simp only [Option.map_some, Option.getD_some]
          rw [hk]
          exact ho
        · exact strncpy_text _ _ (below_nul hs hv)
    · cases hh

/-- A root with a file and two character devices, one of which is a controller with two lines, of which the second is called `"x"`. -/
def board : Board where
  fs := { mode := fun p => if p = [47#8] then .ok 0x4000#32 else .ok 0x2000#32, names := fun p => if p = [47#8] then .ok [[103#8], [104#8]] else .error .notdir }
  real := fun p => some p
  present := fun _ => some 0x2000#32
  lines := fun p => if p = [47#8, 103#8] then some [some [], some [120#8]] else none

theorem board_below {p n : Name} {d : Nat} (h : Walker.Below board.fs [47#8] p n d) :
    (p = [47#8] ∧ n = [47#8] ∧ d = 0) ∨ (p = [47#8, 103#8] ∧ n = [103#8] ∧ d = 1) ∨ (p = [47#8, 104#8] ∧ n = [104#8] ∧ d = 1) := by
  induction h with
  | root => exact .inl ⟨rfl, rfl, rfl⟩
  | @entry p n d mode names m hb hm hd hn hmem hp ih =>
    right
    rcases ih with ⟨rfl, -, rfl⟩ | ⟨rfl, -, rfl⟩ | ⟨rfl, -, rfl⟩
    · have hn : Except.ok [[103#8], [104#8]] = Except.ok (ε := Walker.Errno) names := hn
      cases hn
      simp only [List.mem_cons, List.not_mem_nil, or_false] at hmem
      rcases hmem with rfl | rfl
      · exact .inl ⟨rfl, rfl, rfl⟩
      · exact .inr ⟨rfl, rfl, rfl⟩
    · cases hn
    · cases hn

theorem board_names {p : Name} {l : List Name} (h : board.fs.names p = .ok l) : l = [[103#8], [104#8]] := by
  simp only [board] at h
  split at h
  · cases h; rfl
  · cases h

theorem board_sound : Walker.Sound board.fs [47#8] ∧ Walker.Distinct board.fs ∧ board.Small := by
  refine ⟨⟨⟨by simp, by decide, fun _ => rfl⟩, fun p n d h => ?_, fun p l h => ?_, fun p n d e h he => ?_, fun p n d m e h hm hd he => ?_⟩, fun p l h => ?_, fun p l h => ?_⟩
  · rcases board_below h with ⟨rfl, -⟩ | ⟨rfl, -⟩ | ⟨rfl, -⟩ <;> simp
  · rw [board_names h]; decide
  · rcases board_below h with ⟨rfl, -⟩ | ⟨rfl, -⟩ | ⟨rfl, -⟩ <;> cases he
  · rcases board_below h with ⟨rfl, -⟩ | ⟨rfl, -⟩ | ⟨rfl, -⟩
    · cases he
    · have hm : Except.ok 0x2000#32 = Except.ok (ε := Walker.Errno) m := hm
      cases hm
      exact absurd hd (by decide)
    · have hm : Except.ok 0x2000#32 = Except.ok (ε := Walker.Errno) m := hm
      cases hm
      exact absurd hd (by decide)
  · rw [board_names h]; decide
  · simp only [board] at h
    split at h
    · cases h; decide
    · cases h

/-- There the line `"x"` is offered by `"/g"`. -/
theorem board_offers : Offers board [47#8] [103#8] [120#8] [47#8, 103#8] 1 := by
  refine ⟨[103#8], 1, 0x2000#32, ?_, rfl, by decide, ⟨[], rfl⟩, by simp, [some [], some [120#8]], rfl, rfl, fun j hj => ?_⟩
  · exact Walker.Below.entry (fs := board.fs) (m := [103#8]) (mode := 0x4000#32) (names := [[103#8], [104#8]]) .root rfl (by decide) rfl (by decide)
      ⟨by decide, by decide, by decide⟩
  · have : j = 0 := by omega
    subst this
    exact ⟨[], rfl, by simp⟩

example : ∃ q, find board.world [120#8] [47#8] [103#8] ⟨false, List.replicate 8 1#8, 7#32, false⟩ () = some (q, ()) ∧ q.found = true := by
  obtain ⟨q, h, -, -, hf, -⟩ := line_find board board_sound.2.2 [120#8] [47#8] [103#8] rfl board_sound.1 board_sound.2.1 ⟨false, List.replicate 8 1#8, 7#32, false⟩
  exact ⟨q, h, hf.2 ⟨_, _, board_offers⟩⟩

/-- A path that is too long for the buffer is cut, and the function succeeds: the string is then that of something else. -/
theorem line_find_cut_counterexample :
    ∃ q, find board.world [120#8] [47#8] [103#8] ⟨false, [1#8, 1#8], 7#32, false⟩ () = some (q, ()) ∧ q.found = true ∧ text q.buffer = [47#8] ∧
      ¬ ∃ k, Offers board [47#8] [103#8] [120#8] [47#8] k := by
  obtain ⟨q, h, -, -, hf, ht, -⟩ := line_find board board_sound.2.2 [120#8] [47#8] [103#8] rfl board_sound.1 board_sound.2.1 ⟨false, [1#8, 1#8], 7#32, false⟩
  have hq := hf.2 ⟨_, _, board_offers⟩
  obtain ⟨p, ⟨name, depth, mode, hb, hm, hc, hp, hcar⟩, hx⟩ := ht hq
  refine ⟨q, h, hq, ?_, ?_⟩
  · rw [hx]
    rcases board_below hb with ⟨rfl, -⟩ | ⟨rfl, -⟩ | ⟨rfl, -⟩ <;> rfl
  · rintro ⟨k, name, depth, mode, hb, hm, hc, -⟩
    have hm : Except.ok 0x4000#32 = Except.ok (ε := Walker.Errno) mode := hm
    cases hm
    exact absurd hc (by decide)

/-- Whatever the system calls return: there is no undefined behaviour, every file that is opened is closed, once, no other one is, and to keep track of that does not change anything else. -/
theorem line_find_closes {σ δ : Type} [DecidableEq δ] (w : World σ δ) (hw : Named w) (hr : ∀ p q, w.realpath p = some q → 0#8 ∉ q) (wanted root pre : Name) (r : Result) (s : σ)
    (open_ : List δ) :
    ∃ q t, find w wanted root pre r s = some (q, t) ∧ find (tracked w) wanted root pre r (s, open_, false) = some (q, t, open_, false) := by
  unfold find
  cases hp : w.realpath root with
  | none =>
    rw [show (tracked w).realpath root = none from hp]
    exact ⟨_, _, rfl, rfl⟩
  | some real =>
    rw [show (tracked w).realpath root = some real from hp]
    have hn : Named (tracked w) := by
      intro p s names fault t e n hn
      simp only [tracked] at e
      have e0 : (w.opendir p s.1).1 = .ok (names, fault) := congrArg Prod.fst e
      exact hw p s.1 names fault (w.opendir p s.1).2 (Prod.ext e0 rfl) n hn
    obtain ⟨p1, h1, -, -⟩ := Walker.walk_eq (finder w wanted pre) (finder_strings hw wanted pre) real (none, s) (hr _ _ hp)
    obtain ⟨p2, h2, -, -⟩ := Walker.walk_eq (finder (tracked w) wanted pre) (finder_strings hn wanted pre) real (none, s, open_, false) (hr _ _ hp)
    obtain ⟨e1, e2⟩ := Walker.awalker_rel (finder_tracked w wanted pre open_) real [] 0 (none, s) (none, s, open_, false) rfl
    rw [h1, h2, ← e1, e2]
    simp only []
    by_cases h : (Walker.awalker (finder w wanted pre) real [] 0 (none, s)).1 > 0
    · rw [if_pos h, if_pos h]
      exact ⟨_, _, rfl, rfl⟩
    · rw [if_neg h, if_neg h]
      exact ⟨_, _, rfl, rfl⟩

/-- Whatever the system calls return: a line is found only if its name has been got, with this offset, from a file that was opened with this path. -/
theorem line_find_genuine {σ δ : Type} (w : World σ δ) (hw : Named w) (hr : ∀ p q, w.realpath p = some q → 0#8 ∉ q) (wanted root pre : Name) (r : Result) (s : σ) :
    ∃ q t files names, find (noted w) wanted root pre r (s, [], []) = some (q, t, files, names) ∧
      (q.found = true → ∃ fd path k, (fd, path) ∈ files ∧ (fd, k, wanted) ∈ names ∧ q.line.toNat = k ∧
        ((0#8 ∉ path) → path.length ≤ 4095 → text q.buffer = path.take (r.buffer.length - 1))) ∧
      (q.found = false → q = { r with found := false }) := by
  unfold find
  cases hp : w.realpath root with
  | none =>
    rw [show (noted w).realpath root = none from hp]
    exact ⟨_, _, _, _, rfl, fun h => (by cases h), fun _ => rfl⟩
  | some real =>
    rw [show (noted w).realpath root = some real from hp]
    have hn : Named (noted w) := by
      intro p s names fault t e n hn
      simp only [noted] at e
      have e0 : (w.opendir p s.1).1 = .ok (names, fault) := congrArg Prod.fst e
      exact hw p s.1 names fault (w.opendir p s.1).2 (Prod.ext e0 rfl) n hn
    obtain ⟨p1, h1, -, -⟩ := Walker.walk_eq (finder (noted w) wanted pre) (finder_strings hn wanted pre) real (none, s, [], []) (hr _ _ hp)
    have hg := Walker.awalker_positive (P := Genuine wanted) (finder_noted w wanted pre) (fun p s h => h) real [] 0 (none, s, [], [])
    rw [h1]
    simp only []
    by_cases h : (Walker.awalker (finder (noted w) wanted pre) real [] 0 (none, s, [], [])).1 > 0
    · rw [if_pos h]
      obtain ⟨fd, path, k, e1, e2, e3, e4⟩ := hg h
      refine ⟨_, _, _, _, rfl, fun _ => ⟨fd, path, k, e3, e4, ?_, fun h0 hl => ?_⟩, fun h => (by cases h)⟩
      · simp only [e1, Option.map_some, Option.getD_some, BitVec.toNat_ofNat]
        omega
      · simp only [e1, Option.map_some, Option.getD_some]
        rw [List.take_of_length_le hl]
        exact strncpy_text _ _ h0
    · rw [if_neg h]
      exact ⟨_, _, _, _, rfl, fun h => (by cases h), fun _ => rfl⟩

example : Named board.world := board_named board board_sound.1

/-! ## Parsing -/

/-- Exactly these are accepted of the strings that look like a path and have a colon: after the last colon there are an optional sign, which says whether the line is inverted, and something that
`strtoul(3)` accepts to its end and that has a value less than 2^32; and the object exists, whose path is the canonical form of what is before that colon. -/
theorem line_parse_path {σ δ : Type} (w : World σ δ) (hr : ∀ p q, w.realpath p = some q → q ≠ []) (p o : Name) (hp : Pathlike (p ++ 58#8 :: o)) (ho : 58#8 ∉ o)
    (hroot : ¬ Canonical.Root p) (r q : Result) (s t : σ) :
    parse w (p ++ 58#8 :: o) r s = some (q, t) ∧ q.found = true ↔
      t = s ∧ p.length < 4096 ∧ ∃ inv u neg n v dir file c, Signed o inv u ∧ Number.Reads u neg n [] ∧ Value neg n v ∧ v < 2 ^ 32 ∧ Canonical.Splits p dir file ∧
        Canonical.expected w.realpath dir file r.buffer.length = .success c ∧ (w.stat c).isSome ∧
        q = ⟨true, c ++ 0#8 :: r.buffer.drop (c.length + 1), BitVec.ofNat 32 v, inv⟩ := by
  obtain ⟨inv, u, hs⟩ := signed_exists o
  rw [parse_path w p o hp ho inv u hs r s]
  have hci := canonical_iff w.realpath hr p hroot r.buffer.length
  constructor
  · rintro ⟨h, hq⟩
    split at h
    · cases h; cases hq
    rename_i hu
    split at h
    · cases h; cases hq
    rename_i he
    split at h
    · cases h; cases hq
    rename_i hv
    split at h
    · cases h
    · cases h; cases hq
    · rename_i c hc
      split at h
      · cases h; cases hq
      · rename_i hst
        cases h
        obtain ⟨-, hl, dir, file, hsp, hex⟩ := (hci c).1 hc
        obtain ⟨neg, n, hrd, hval⟩ := (strtoull_iff u hu _).1 ⟨by simpa using he, rfl⟩
        refine ⟨rfl, hl, inv, u, neg, n, _, dir, file, c, hs, hrd, hval, by omega, hsp, hex, ?_, rfl⟩
        cases hw : w.stat c with
        | none => rw [hw] at hst; exact absurd rfl hst
        | some m => rfl
  · rintro ⟨rfl, hl, inv', u', neg, n, v, dir, file, c, hs', hrd, hval, hv, hsp, hex, hst, rfl⟩
    obtain ⟨rfl, rfl⟩ := signed_unique hs hs'
    have hu := reads_ne hrd
    obtain ⟨h1, h2⟩ := (strtoull_iff u hu v).2 ⟨neg, n, hrd, hval⟩
    have hp0 : p ≠ [] := by
      rintro rfl
      rcases hp with ⟨x, hx⟩ | ⟨x, hx⟩ | ⟨x, hx⟩ <;> cases hx
    rw [if_neg hu, if_neg (by simpa using h1), if_neg (by omega), (hci c).2 ⟨hp0, hl, dir, file, hsp, hex⟩]
    simp only []
    rw [if_neg (by cases hw : w.stat c with | none => rw [hw] at hst; cases hst | some m => simp), h2]
    exact ⟨rfl, trivial⟩

/-- Otherwise null is returned, and the line and the inversion are not stored. -/
theorem line_parse_path_refused {σ δ : Type} (w : World σ δ) (hr : ∀ p q, w.realpath p = some q → q ≠ []) (p o : Name) (hp : Pathlike (p ++ 58#8 :: o)) (ho : 58#8 ∉ o)
    (hroot : ¬ Canonical.Root p) (r : Result) (s : σ) :
    ∃ q, parse w (p ++ 58#8 :: o) r s = some (q, s) ∧ (q.found = false → q.line = r.line ∧ q.inverted = r.inverted) := by
  obtain ⟨inv, u, hs⟩ := signed_exists o
  rw [parse_path w p o hp ho inv u hs r s]
  have hd := canonical_defined w.realpath hr p hroot r.buffer.length
  split
  · exact ⟨_, rfl, fun _ => ⟨rfl, rfl⟩⟩
  split
  · exact ⟨_, rfl, fun _ => ⟨rfl, rfl⟩⟩
  split
  · exact ⟨_, rfl, fun _ => ⟨rfl, rfl⟩⟩
  cases hc : Canonical.canonicalize w.realpath p r.buffer.length with
  | undefined => exact absurd hc hd
  | failure => exact ⟨_, rfl, fun _ => ⟨rfl, rfl⟩⟩
  | success c =>
    simp only []
    split
    · exact ⟨_, rfl, fun _ => ⟨rfl, rfl⟩⟩
    · exact ⟨_, rfl, fun h => (by cases h)⟩

theorem numeral_first {t : Name} {base n : Nat} (h : Number.Numeral t base n) : ∀ b u, t = b :: u → 48 ≤ b.toNat ∧ b.toNat ≤ 57 := by
  have den : ∀ {base : Nat} {t : Name} {n : Nat}, base ≤ 10 → Number.Denotes base t n → ∀ b u, t = b :: u → 48 ≤ b.toNat ∧ b.toNat ≤ 57 := by
    intro base t n hb h
    induction h with
    | @one b v hd =>
      intro b' u e
      cases e
      obtain ⟨h1, h2⟩ := hd
      omega
    | @more s b n v hs hd ih =>
      intro b' u e
      cases hs with
      | one hd' => cases e; exact ih _ _ rfl
      | @more s' c _ _ hs' hd' =>
        cases s' with
        | nil => cases e; exact ih _ _ rfl
        | cons x y => cases e; exact ih _ _ rfl
  intro b u e
  cases h with
  | hexadecimal => cases e; decide
  | octal => cases e; decide
  | zero => cases e; decide
  | decimal hd => exact den (Nat.le_refl _) hd b u e

theorem numeral_reads {t : Name} {base n : Nat} (h : Number.Numeral t base n) : Number.Reads t false n [] := by
  refine ⟨[], [], t, base, by simp, fun b hb => absurd hb (by simp), .none, h, fun b t v e => (by cases e), ?_⟩
  intro hz x y t' v e
  cases e

/-- What is documented is accepted: a path, a colon, an optional sign, and a numeral less than 2^32; the offset is its value, also if it is zero.  The full claim is that nothing else is, which is
false, and for paths right below the root also, for which the behaviour is undefined. -/
theorem line_parse_documented_partial {σ δ : Type} (w : World σ δ) (hr : ∀ p q, w.realpath p = some q → q ≠ []) (p g t : Name) (hp : Pathlike (p ++ 58#8 :: (g ++ t)))
    (hroot : ¬ Canonical.Root p) (hlen : p.length < 4096) {inv : Bool} (hg : Number.Sign g inv) {base n : Nat} (ht : Number.Numeral t base n) (hn : n < 2 ^ 32) (r : Result) (s : σ)
    {dir file c : Name} (hsp : Canonical.Splits p dir file) (hc : Canonical.expected w.realpath dir file r.buffer.length = .success c) (hst : (w.stat c).isSome) :
    parse w (p ++ 58#8 :: (g ++ t)) r s = some (⟨true, c ++ 0#8 :: r.buffer.drop (c.length + 1), BitVec.ofNat 32 n, inv⟩, s) := by
  have hcol : 58#8 ∉ t := by
    have den : ∀ {base : Nat} {t : Name} {n : Nat}, Number.Denotes base t n → 58#8 ∉ t := by
      intro base t n h
      have key : ∀ {b : Byte} {v : Nat}, Number.IsDigit base b v → 58#8 ≠ b := by
        rintro b v ⟨h1, h2⟩ rfl
        have : (58#8).toNat = 58 := rfl
        omega
      induction h with
      | one hd => simpa using key hd
      | more hs hd ih =>
        rw [List.mem_append, not_or]
        exact ⟨ih, by simpa using key hd⟩
    cases ht with
    | hexadecimal hx hd =>
      rw [List.mem_cons, List.mem_cons, not_or, not_or]
      refine ⟨by decide, ?_, den hd⟩
      rcases hx with rfl | rfl <;> decide
    | octal hd =>
      rw [List.mem_cons, not_or]
      exact ⟨by decide, den hd⟩
    | zero => decide
    | decimal hd => exact den hd
  have hcolg : 58#8 ∉ g ++ t := by
    rw [List.mem_append, not_or]
    refine ⟨?_, hcol⟩
    cases hg <;> decide
  have hsg : Signed (g ++ t) inv t := by
    cases hg with
    | none =>
      refine .none t fun u => ⟨fun e => ?_, fun e => ?_⟩
      · have := numeral_first ht _ _ e
        revert this
        decide
      · have := numeral_first ht _ _ e
        revert this
        decide
    | plus => exact .plus t
    | minus => exact .minus t
  have hv : Value false n n := by
    unfold Value
    rw [if_pos (by omega)]
    rfl
  exact ((line_parse_path w hr p (g ++ t) hp hcolg hroot r _ s s).2
    ⟨rfl, hlen, inv, t, false, n, n, dir, file, c, hsg, numeral_reads ht, hv, hn, hsp, hc, hst, rfl⟩).1

/-- `"/d/g:-2"`, where `"/d/"` is `"/d"`. -/
theorem slash_splits : Canonical.Splits [47#8, 100#8, 47#8, 103#8] [47#8, 100#8, 47#8] [103#8] :=
  .nominal [47#8, 100#8] [103#8] (by decide) (by decide) (by decide)

/-- Calls for which `"/d/g"` is there. -/
def there : World Unit Name := { board.world with realpath := fun p => if p = [47#8, 100#8, 47#8] then some [47#8, 100#8] else none }

example : parse there [47#8, 100#8, 47#8, 103#8, 58#8, 45#8, 50#8] ⟨false, List.replicate 6 1#8, 9#32, false⟩ () =
    some (⟨true, [47#8, 100#8, 47#8, 103#8, 0#8, 1#8], 2#32, true⟩, ()) :=
  line_parse_documented_partial there
    (by
      intro p q h
      simp only [there] at h
      split at h
      · cases h; simp
      · cases h)
    [47#8, 100#8, 47#8, 103#8] [45#8] [50#8] (.inl ⟨_, rfl⟩)
    (by
      rintro ⟨file, h1, h2⟩
      cases h2
      exact h1 (by decide))
    (by decide) .minus (.decimal (.one (v := 2) ⟨by decide, .inl ⟨by decide, by decide⟩⟩) (by decide)) (by decide) ⟨false, List.replicate 6 1#8, 9#32, false⟩ ()
    (c := [47#8, 100#8, 47#8, 103#8]) slash_splits (by rfl) (by rfl)

/-- After the sign white space and another sign are accepted: `"/d/g:- 2"` and `"/d/g:-+2"` are line 2, inverted; and `"/d/g:--18446744073709551615"` is line 1, inverted. -/
theorem line_parse_sign_counterexample :
    parse there [47#8, 100#8, 47#8, 103#8, 58#8, 45#8, 32#8, 50#8] ⟨false, List.replicate 6 1#8, 9#32, false⟩ () = some (⟨true, [47#8, 100#8, 47#8, 103#8, 0#8, 1#8], 2#32, true⟩, ()) ∧
    parse there [47#8, 100#8, 47#8, 103#8, 58#8, 45#8, 43#8, 50#8] ⟨false, List.replicate 6 1#8, 9#32, false⟩ () = some (⟨true, [47#8, 100#8, 47#8, 103#8, 0#8, 1#8], 2#32, true⟩, ()) ∧
    parse there ([47#8, 100#8, 47#8, 103#8, 58#8, 45#8, 45#8] ++
        [49#8, 56#8, 52#8, 52#8, 54#8, 55#8, 52#8, 52#8, 48#8, 55#8, 51#8, 55#8, 48#8, 57#8, 53#8, 53#8, 49#8, 54#8, 49#8, 53#8]) ⟨false, List.replicate 6 1#8, 9#32, false⟩ () =
      some (⟨true, [47#8, 100#8, 47#8, 103#8, 0#8, 1#8], 1#32, true⟩, ()) := by
  refine ⟨by rfl, by rfl, by rfl⟩

/-- For a path right below the root, such as `"/g:2"`, the behaviour is undefined: the byte before the beginning of an empty string is read. -/
theorem line_parse_root_counterexample {σ δ : Type} (w : World σ δ) (file o : Name) (hf : 47#8 ∉ file) (ho : 58#8 ∉ o) {inv neg : Bool} {u : Name} {n v : Nat} (hs : Signed o inv u)
    (hr : Number.Reads u neg n []) (hv : Value neg n v) (hlt : v < 2 ^ 32) (r : Result) (hlen : (47#8 :: file).length < 4096) (hsize : 1 + file.length < r.buffer.length) (s : σ) :
    parse w (47#8 :: file ++ 58#8 :: o) r s = none := by
  have hp : Pathlike (47#8 :: file ++ 58#8 :: o) := .inl ⟨_, rfl⟩
  rw [parse_path w (47#8 :: file) o hp ho inv u hs r s]
  have hu := reads_ne hr
  obtain ⟨h1, h2⟩ := (strtoull_iff u hu v).2 ⟨neg, n, hr, hv⟩
  rw [if_neg hu, if_neg (by simpa using h1), if_neg (by omega), Canonical.canonicalize_root_counterexample w.realpath file hf _ hlen hsize]

/-- A string that does not look like a path, or has no colon, is an optional sign, which says whether the line is inverted, and the name of a line; it is looked for in the controllers
`gpiochip*` in `/dev`. -/
theorem line_parse_name (b : Board) (hb : b.Small) (q : Name) (hq : ¬ Pathlike q ∨ 58#8 ∉ q) {inv : Bool} {t : Name} (hsg : Signed q inv t) {dev : Name}
    (hr : b.real [47#8, 100#8, 101#8, 118#8] = some dev) (hs : Walker.Sound b.fs dev) (hd : Walker.Distinct b.fs) (r : Result) :
    ∃ x, parse b.world q r () = some (x, ()) ∧
      (x.found = true ↔ ∃ p k, Offers b dev [103#8, 112#8, 105#8, 111#8, 99#8, 104#8, 105#8, 112#8] t p k) ∧
      (x.found = true → x.inverted = inv ∧ ∃ p, Offers b dev [103#8, 112#8, 105#8, 111#8, 99#8, 104#8, 105#8, 112#8] t p x.line.toNat ∧
        text x.buffer = p.take (r.buffer.length - 1)) ∧
      (x.found = false → x = { r with found := false }) := by
  rw [parse_name b.world q hq inv t hsg r ()]
  obtain ⟨x, he, hl, hi, hf, ht, hn⟩ := line_find b hb t ROOT PREFIX hr hs hd { r with line := 0xFFFFFFFF#32 }
  rw [he]
  simp only []
  by_cases hx : x.found = true
  · rw [if_pos hx]
    obtain ⟨p, hp, htx⟩ := ht hx
    exact ⟨_, rfl, hf, fun _ => ⟨rfl, p, hp, htx⟩, fun h => absurd (hx.symm.trans h) (by decide)⟩
  · rw [if_neg hx]
    refine ⟨_, rfl, ⟨fun h => (by cases h), fun h => absurd (hf.2 h) hx⟩, fun h => (by cases h), fun _ => rfl⟩

/-- `"-x"` is the name `"x"`, inverted. -/
example : Signed [45#8, 120#8] true [120#8] ∧ ¬ Pathlike [45#8, 120#8] := by
  refine ⟨.minus _, ?_⟩
  rintro (⟨x, hx⟩ | ⟨x, hx⟩ | ⟨x, hx⟩) <;> cases hx

end Diminuto.Line
