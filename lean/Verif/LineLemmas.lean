import Verif.LineSpec
import Verif.WalkerRel
import Verif.WalkerProps
import Verif.CanonicalProps
import Verif.NumberProps

/-!
# Lemmas about the lookup of GPIO lines
-/

namespace Diminuto.Line

open Walker (Visit)

/-! ## The lines of a controller -/

theorem search_board (b : Board) (p wanted : Name) (l : List (Option Name)) (hl : b.lines p = some l) (n : Nat) : ∀ ii, ii + n = l.length → ∀ k,
    (search b.world p wanted ii n ()).1 = some k ↔
      ii ≤ k ∧ wanted ≠ [] ∧ l[k]? = some (some wanted) ∧ ∀ j, ii ≤ j → j < k → ∃ m, l[j]? = some (some m) ∧ m ≠ wanted := by
  induction n with
  | zero =>
    intro ii hii k
    rw [search]
    constructor
    · intro h; cases h
    · rintro ⟨h1, -, h2, -⟩
      rw [List.getElem?_eq_none (by omega)] at h2
      cases h2
  | succ n ih =>
    intro ii hii k
    have hlt : ii < l.length := by omega
    have hi : b.world.lineinfo p ii () = (l[ii], ()) := by
      simp only [Board.world, hl, Option.bind_some, List.getElem?_eq_getElem hlt, Option.getD_some]
    have ht : l[ii]? = some l[ii] := List.getElem?_eq_getElem hlt
    rw [search, hi]
    cases hx : l[ii] with
    | none =>
      rw [hx] at ht
      simp only []
      constructor
      · intro h; cases h
      · rintro ⟨h1, h2, h3, h4⟩
        rcases Nat.lt_or_ge ii k with h | h
        · obtain ⟨m, hm, -⟩ := h4 ii (Nat.le_refl _) h
          rw [ht] at hm
          cases hm
        · have : k = ii := by omega
          rw [this, ht] at h3
          cases h3
    | some name =>
      rw [hx] at ht
      simp only []
      have step : name ≠ wanted ∨ wanted = [] → ((search b.world p wanted (ii + 1) n ()).1 = some k ↔
          ii ≤ k ∧ wanted ≠ [] ∧ l[k]? = some (some wanted) ∧ ∀ j, ii ≤ j → j < k → ∃ m, l[j]? = some (some m) ∧ m ≠ wanted) := by
        intro hne
        rw [ih (ii + 1) (by omega) k]
        constructor
        · rintro ⟨h1, h2, h3, h4⟩
          refine ⟨by omega, h2, h3, fun j hj hk => ?_⟩
          by_cases he : j = ii
          · rw [he]
            rcases hne with hne | hne
            · exact ⟨name, ht, hne⟩
            · exact absurd hne h2
          · exact h4 j (by omega) hk
        · rintro ⟨h1, h2, h3, h4⟩
          have hk : k ≠ ii := by
            rintro rfl
            rw [ht] at h3
            cases h3
            rcases hne with hne | hne
            · exact hne rfl
            · exact h2 hne
          exact ⟨by omega, h2, h3, fun j hj hk => h4 j (by omega) hk⟩
      by_cases h0 : name = []
      · rw [if_pos h0]
        apply step
        by_cases hw : name = wanted
        · exact .inr (hw ▸ h0)
        · exact .inl hw
      · rw [if_neg h0]
        by_cases hw : name = wanted
        · rw [if_neg (fun h => h hw)]
          subst hw
          constructor
          · intro h
            cases h
            exact ⟨Nat.le_refl _, h0, ht, fun j h1 h2 => by omega⟩
          · rintro ⟨h1, h2, h3, h4⟩
            rcases Nat.lt_or_ge ii k with h | h
            · obtain ⟨m, hm, hne⟩ := h4 ii (Nat.le_refl _) h
              rw [ht] at hm
              cases hm
              exact absurd rfl hne
            · have : k = ii := by omega
              rw [this]
        · rw [if_pos hw]
          exact step (.inl hw)

theorem chip_board (b : Board) (hb : b.Small) (p wanted : Name) (k : Nat) : (chip b.world p wanted ()).1 = some k ↔ Carries b p wanted k := by
  unfold chip
  cases hl : b.lines p with
  | none =>
    have : b.world.chipinfo p () = (none, ()) := by simp only [Board.world, hl, Option.map_none]
    rw [this]
    simp only []
    constructor
    · intro h; cases h
    · rintro ⟨-, l, h, -⟩
      rw [hl] at h
      cases h
  | some l =>
    have : b.world.chipinfo p () = (some (BitVec.ofNat 31 l.length), ()) := by simp only [Board.world, hl, Option.map_some]
    rw [this]
    simp only []
    have hn : (BitVec.ofNat 31 l.length).toNat = l.length := by
      rw [BitVec.toNat_ofNat, Nat.mod_eq_of_lt (hb p l hl)]
    rw [hn, search_board b p wanted l hl l.length 0 (by omega) k]
    constructor
    · rintro ⟨-, h2, h3, h4⟩
      exact ⟨h2, l, hl, h3, fun j hj => h4 j (by omega) hj⟩
    · rintro ⟨h2, l', hl', h3, h4⟩
      rw [hl] at hl'
      cases hl'
      exact ⟨by omega, h2, h3, fun j _ hj => h4 j hj⟩

theorem carries_lt (b : Board) (hb : b.Small) {p wanted : Name} {k : Nat} (h : Carries b p wanted k) : k < 2 ^ 31 := by
  obtain ⟨-, l, hl, hk, -⟩ := h
  have := hb p l hl
  rcases Nat.lt_or_ge k l.length with h | h
  · omega
  · rw [List.getElem?_eq_none h] at hk
    cases hk

theorem character_iff (mode : BitVec 32) : Walker.mode2type mode = 99#8 ↔ character mode = true := by
  unfold Walker.mode2type character
  rw [Walker.mode_mask]
  generalize mode.extractLsb' 12 4 = k
  revert k
  decide +kernel

/-! ## The callback -/

/-- What is found in an object. -/
def hit (b : Board) (wanted pre : Name) (v : Visit) : Found :=
  if character v.mode = true ∧ pre <+: v.name then (chip b.world v.path wanted ()).1.map fun k => (v.path.take 4095, k) else none

theorem prefix_take (pre name : Name) : name.take pre.length = pre ↔ pre <+: name := by
  constructor
  · intro h
    rw [← h]
    exact List.take_prefix _ _
  · rintro ⟨t, rfl⟩
    simp

theorem walker_board (b : Board) (wanted pre n p : Name) (d : Nat) (m : BitVec 32) (s : Found × Unit) :
    walker b.world wanted pre n p d m s = (if (hit b wanted pre ⟨n, p, d, m⟩).isSome then 1 else 0, (hit b wanted pre ⟨n, p, d, m⟩).or s.1, ()) := by
  unfold walker
  by_cases hc : character m = true
  · rw [if_neg (show ¬ Walker.mode2type m ≠ 99#8 from fun h => h ((character_iff m).2 hc))]
    by_cases hp : pre <+: n
    · have hh : hit b wanted pre ⟨n, p, d, m⟩ = (chip b.world p wanted ()).1.map fun k => (p.take 4095, k) := if_pos ⟨hc, hp⟩
      rw [hh, if_neg (show ¬ n.take pre.length ≠ pre from fun h => h ((prefix_take pre n).2 hp))]
      have ho : b.world.open_ p s.2 = (some p, ()) := rfl
      rw [ho]
      simp only []
      rcases hch : chip b.world p wanted () with ⟨x, y⟩
      cases x with
      | none => rfl
      | some k => rfl
    · have hh : hit b wanted pre ⟨n, p, d, m⟩ = none := if_neg fun h => hp h.2
      rw [hh, if_pos (show n.take pre.length ≠ pre from fun h => hp ((prefix_take pre n).1 h))]
      rfl
  · have hh : hit b wanted pre ⟨n, p, d, m⟩ = none := if_neg fun h => hc h.1
    rw [hh, if_pos (show Walker.mode2type m ≠ 99#8 from fun h => hc ((character_iff m).1 h))]
    rfl

theorem finder_related (b : Board) (wanted pre : Name) :
    Walker.Related (fun (s : Found × Unit) (log : List Visit) => s.1 = log.reverse.findSome? (hit b wanted pre)) (finder b.world wanted pre)
      (b.fs.sys fun _ v => if (hit b wanted pre v).isSome then 1 else 0) where
  lstat := fun p s t h => ⟨rfl, h⟩
  opendir := fun p s t h => ⟨rfl, h⟩
  closedir := fun p s t h => ⟨rfl, h⟩
  callback := by
    intro n p d m s log h
    have e : (finder b.world wanted pre).callback n p d m s = _ := walker_board b wanted pre n p d m s
    rw [e]
    refine ⟨rfl, ?_⟩
    simp only [Walker.Fs.sys, List.reverse_append, List.reverse_cons, List.reverse_nil, List.nil_append, List.singleton_append, List.findSome?_cons]
    cases hh : hit b wanted pre ⟨n, p, d, m⟩ with
    | none => simpa using h
    | some x => rfl

theorem finder_strings {σ δ : Type} {w : World σ δ} (h : Named w) (wanted pre : Name) : Walker.Strings (finder w wanted pre) := by
  intro p s names fault t e n hn
  simp only [finder] at e
  have e0 : (w.opendir p s.2).1 = .ok (names, fault) := congrArg Prod.fst e
  have e1 : w.opendir p s.2 = (.ok (names, fault), (w.opendir p s.2).2) := Prod.ext e0 rfl
  exact (h p s.2 names fault _ e1 n hn).1

theorem board_named (b : Board) {root : Name} (h : Walker.Sound b.fs root) : Named b.world := by
  intro p s names fault t e n hn
  simp only [Board.world] at e
  cases hl : b.fs.names p with
  | error x => rw [hl] at e; cases e
  | ok l => rw [hl] at e; cases e; exact h.names _ _ hl n hn

theorem fs_strings {fs : Walker.Fs} {root : Name} (hs : Walker.Sound fs root) (f : List Visit → Visit → Int) : Walker.Strings (fs.sys f) := by
  intro p s names fault t h n hn
  simp only [Walker.Fs.sys] at h
  cases hl : fs.names p with
  | error x => rw [hl] at h; cases h
  | ok l => rw [hl] at h; cases h; exact (hs.names _ _ hl n hn).1

theorem below_nul {fs : Walker.Fs} {root p n : Name} {d : Nat} (hs : Walker.Sound fs root) (h : Walker.Below fs root p n d) : 0#8 ∉ p := by
  induction h with
  | root => exact hs.start.2.1
  | @entry p n d mode names m hb hm hd hn hmem hp ih =>
    have := (hs.names _ _ hn m hmem).1
    unfold Walker.under
    split <;> simp [ih, this]

/-- The walk with the callback, in terms of the objects. -/
theorem walk_board (b : Board) (wanted pre : Name) {root : Name} (hs : Walker.Sound b.fs root) (hd : Walker.Distinct b.fs) :
    ∃ rc path f, Walker.walk (finder b.world wanted pre) (some root) (none, ()) = some (rc, path, f, ()) ∧
      ((rc = 0 ∧ ∀ v : Visit, Walker.Below b.fs root v.path v.name v.depth → b.fs.mode v.path = .ok v.mode → hit b wanted pre v = none) ∨
      (rc = 1 ∧ f.isSome ∧ ∃ v : Visit, Walker.Below b.fs root v.path v.name v.depth ∧ b.fs.mode v.path = .ok v.mode ∧ hit b wanted pre v = f)) := by
  obtain ⟨vs, hvs, -, -, hout⟩ := Walker.walker_visits hs hd
  obtain ⟨r, pth, log, hw, hO⟩ := hout fun _ v => if (hit b wanted pre v).isSome then 1 else 0
  obtain ⟨path', h', -, -⟩ := Walker.walk_eq (b.fs.sys fun _ v => if (hit b wanted pre v).isSome then 1 else 0) (fs_strings hs _) root [] hs.start.2.1
  obtain ⟨path, h, -, -⟩ := Walker.walk_eq (finder b.world wanted pre) (finder_strings (board_named b hs) wanted pre) root (none, ()) hs.start.2.1
  obtain ⟨e1, e2⟩ := Walker.awalker_rel (finder_related b wanted pre) root [] 0 (none, ()) [] rfl
  rw [hw] at h'
  cases h'
  refine ⟨_, path, _, h, ?_⟩
  rw [e1]
  rw [e2]
  rcases hO with ⟨hr, -, hall⟩ | ⟨i, hi, hr, hr0, hlog, -⟩
  · left
    refine ⟨hr, fun v hb hm => ?_⟩
    obtain ⟨i, hi, rfl⟩ := List.mem_iff_getElem.1 ((hvs v).2 ⟨hb, hm⟩)
    have := hall i hi
    simp only [] at this
    cases hh : hit b wanted pre vs[i] with
    | none => rfl
    | some x =>
      rw [hh] at this
      cases this
  · right
    rw [hr] at hr0
    rw [hr, hlog]
    simp only [] at hr0 ⊢
    cases hh : hit b wanted pre vs[i] with
    | none =>
      rw [hh] at hr0
      exact absurd rfl hr0
    | some x =>
      have ht : (vs.take (i + 1)).reverse = vs[i] :: (vs.take i).reverse := by
        rw [List.take_add_one, List.getElem?_eq_getElem hi]
        simp
      rw [ht, List.findSome?_cons, hh]
      simp only []
      obtain ⟨h1, h2⟩ := (hvs vs[i]).1 (List.getElem_mem hi)
      exact ⟨rfl, rfl, vs[i], h1, h2, hh⟩

/-! ## Buffers -/

theorem strncpy_length (buffer : List Byte) (p : Name) : (strncpy buffer p).length = buffer.length := by
  unfold strncpy
  split
  · simp
  · rfl

theorem takeWhile_nul {p : Name} (hp : 0#8 ∉ p) (r : List Byte) : text (p ++ 0#8 :: r) = p := Walker.text_append p r hp

theorem strncpy_text (buffer : List Byte) (p : Name) (hp : 0#8 ∉ p) : text (strncpy buffer p) = p.take (buffer.length - 1) := by
  unfold strncpy
  by_cases h : buffer.length > 0
  · rw [if_pos h]
    obtain ⟨n, hn⟩ : ∃ n, buffer.length = n + 1 := ⟨buffer.length - 1, by omega⟩
    rw [hn, show n + 1 - 1 = n from rfl]
    have key : ((p ++ List.replicate (n + 1) 0#8).take (n + 1)).set n 0#8 = p.take n ++ 0#8 :: List.replicate (n - p.length) 0#8 := by
      apply List.ext_getElem?
      intro i
      rw [List.getElem?_set, List.length_take, List.length_append, List.length_replicate]
      by_cases hi : n = i
      · subst hi
        rw [if_pos rfl, if_pos (by omega)]
        by_cases hl : p.length ≤ n
        · rw [List.take_of_length_le hl, List.getElem?_append_right hl]
          rw [← List.replicate_succ, List.getElem?_replicate, if_pos (by omega)]
        · rw [List.getElem?_append_right (by rw [List.length_take]; omega), List.length_take, Nat.min_eq_left (by omega), Nat.sub_self]
          rfl
      · rw [if_neg hi, List.getElem?_take]
        by_cases hin : i < n + 1
        · rw [if_pos hin]
          by_cases hl : i < p.length
          · rw [List.getElem?_append_left hl, List.getElem?_append_left (by rw [List.length_take]; omega), List.getElem?_take, if_pos (by omega)]
          · rw [List.getElem?_append_right (by omega), List.getElem?_replicate, if_pos (by omega), List.take_of_length_le (by omega),
              List.getElem?_append_right (by omega), ← List.replicate_succ, List.getElem?_replicate, if_pos (by omega)]
        · rw [if_neg hin]
          symm
          apply List.getElem?_eq_none
          simp
          omega
    rw [key]
    exact takeWhile_nul (fun h => hp (List.mem_of_mem_take h)) _
  · rw [if_neg h]
    have : buffer = [] := List.eq_nil_of_length_eq_zero (by omega)
    rw [this]
    rfl

/-! ## Descriptors -/

section
variable {σ δ : Type} [DecidableEq δ] (w : World σ δ)

theorem search_tracked (fd : δ) (wanted : Name) (n : Nat) : ∀ (ii : Nat) (s : σ) (x : List δ × Bool),
    search (tracked w) fd wanted ii n (s, x) = ((search w fd wanted ii n s).1, (search w fd wanted ii n s).2, x) := by
  induction n with
  | zero => intro ii s x; rfl
  | succ n ih =>
    intro ii s x
    rw [search, search]
    have : (tracked w).lineinfo fd ii (s, x) = ((w.lineinfo fd ii s).1, (w.lineinfo fd ii s).2, x) := rfl
    rw [this]
    rcases w.lineinfo fd ii s with ⟨r, t⟩
    cases r with
    | none => rfl
    | some name =>
      simp only []
      split
      · exact ih _ _ _
      · split
        · exact ih _ _ _
        · rfl

theorem chip_tracked (fd : δ) (wanted : Name) (s : σ) (x : List δ × Bool) : chip (tracked w) fd wanted (s, x) = ((chip w fd wanted s).1, (chip w fd wanted s).2, x) := by
  unfold chip
  have : (tracked w).chipinfo fd (s, x) = ((w.chipinfo fd s).1, (w.chipinfo fd s).2, x) := rfl
  rw [this]
  rcases w.chipinfo fd s with ⟨r, t⟩
  cases r with
  | none => rfl
  | some l => exact search_tracked w fd wanted _ _ _ _

theorem finder_tracked (wanted pre : Name) (x : List δ) :
    Walker.Related (fun (s : Found × σ) (t : Found × σ × List δ × Bool) => t = (s.1, s.2, x, false)) (finder w wanted pre) (finder (tracked w) wanted pre) where
  lstat := by rintro p s t rfl; exact ⟨rfl, rfl⟩
  opendir := by rintro p s t rfl; exact ⟨rfl, rfl⟩
  closedir := by rintro p s t rfl; exact ⟨rfl, rfl⟩
  callback := by
    rintro n p d m ⟨f, s⟩ t rfl
    show (walker w wanted pre n p d m (f, s)).1 = (walker (tracked w) wanted pre n p d m (f, s, x, false)).1 ∧
      (walker (tracked w) wanted pre n p d m (f, s, x, false)).2 = ((walker w wanted pre n p d m (f, s)).2.1, (walker w wanted pre n p d m (f, s)).2.2, x, false)
    unfold walker
    split
    · exact ⟨rfl, rfl⟩
    split
    · exact ⟨rfl, rfl⟩
    simp only [tracked]
    rcases w.open_ p s with ⟨r, t⟩
    cases r with
    | none => exact ⟨rfl, rfl⟩
    | some fd =>
      have hc := chip_tracked w fd wanted t (fd :: x, false)
      simp only [tracked] at hc
      simp only [hc]
      rcases chip w fd wanted t with ⟨r, u⟩
      cases r with
      | none => exact ⟨rfl, by simp⟩
      | some k => exact ⟨rfl, by simp⟩

end

/-! ## What has been got -/

section
variable {σ δ : Type} (w : World σ δ)

theorem search_noted (fd : δ) (wanted : Name) (n : Nat) : ∀ (ii : Nat) (s : σ × List (δ × Name) × List (δ × Nat × Name)) (k : Nat), (search (noted w) fd wanted ii n s).1 = some k →
    (search (noted w) fd wanted ii n s).2.2.1 = s.2.1 ∧ ii ≤ k ∧ k < ii + n ∧ (fd, k, wanted) ∈ (search (noted w) fd wanted ii n s).2.2.2 := by
  induction n with
  | zero => intro ii s k h; cases h
  | succ n ih =>
    intro ii s k
    rw [search]
    simp only [noted]
    rcases w.lineinfo fd ii s.1 with ⟨r, t⟩
    cases r with
    | none => intro h; cases h
    | some name =>
      simp only []
      have hi := ih (ii + 1) (t, s.2.1, (fd, ii, name) :: s.2.2) k
      simp only [noted] at hi
      split
      · intro h
        obtain ⟨h1, h2, h3, h4⟩ := hi h
        exact ⟨h1, by omega, by omega, h4⟩
      · split
        · intro h
          obtain ⟨h1, h2, h3, h4⟩ := hi h
          exact ⟨h1, by omega, by omega, h4⟩
        · rename_i hw
          intro h
          cases h
          have : name = wanted := Classical.byContradiction hw
          subst this
          exact ⟨rfl, by omega, by omega, List.mem_cons_self⟩

theorem chip_noted (fd : δ) (wanted : Name) (s : σ × List (δ × Name) × List (δ × Nat × Name)) (k : Nat) (h : (chip (noted w) fd wanted s).1 = some k) :
    (chip (noted w) fd wanted s).2.2.1 = s.2.1 ∧ k < 2 ^ 31 ∧ (fd, k, wanted) ∈ (chip (noted w) fd wanted s).2.2.2 := by
  unfold chip at h ⊢
  have e : (noted w).chipinfo fd s = ((w.chipinfo fd s.1).1, (w.chipinfo fd s.1).2, s.2) := rfl
  rw [e] at h ⊢
  rcases hci : w.chipinfo fd s.1 with ⟨r, t⟩
  rw [hci] at h
  cases r with
  | none => cases h
  | some l =>
    obtain ⟨h1, h2, h3, h4⟩ := search_noted w fd wanted l.toNat 0 (t, s.2) k h
    have := l.isLt
    exact ⟨h1, by omega, h4⟩

/-- The string and the offset are those of a file that has been opened and of a line of it whose name has been got. -/
def Genuine (wanted : Name) (s : Found × σ × List (δ × Name) × List (δ × Nat × Name)) : Prop :=
  ∃ fd path k, s.1 = some (path.take 4095, k) ∧ k < 2 ^ 31 ∧ (fd, path) ∈ s.2.2.1 ∧ (fd, k, wanted) ∈ s.2.2.2

theorem finder_noted (wanted pre n p : Name) (d : Nat) (m : BitVec 32) (s : Found × σ × List (δ × Name) × List (δ × Nat × Name))
    (h : 0 < ((finder (noted w) wanted pre).callback n p d m s).1) : Genuine wanted ((finder (noted w) wanted pre).callback n p d m s).2 := by
  simp only [finder] at h ⊢
  unfold walker at h ⊢
  split at h
  · cases h
  rename_i h1
  rw [if_neg h1]
  split at h
  · cases h
  rename_i h2
  rw [if_neg h2]
  rcases ho : w.open_ p s.2.1 with ⟨r, t⟩
  cases r with
  | none =>
    have e : (noted w).open_ p s.2 = (none, t, s.2.2) := by simp only [noted, ho]
    rw [e] at h
    cases h
  | some fd =>
    have e : (noted w).open_ p s.2 = (some fd, t, (fd, p) :: s.2.2.1, s.2.2.2) := by simp only [noted, ho]
    rw [e] at h ⊢
    simp only [] at h ⊢
    have hk := chip_noted w fd wanted (t, (fd, p) :: s.2.2.1, s.2.2.2)
    rcases hch : chip (noted w) fd wanted (t, (fd, p) :: s.2.2.1, s.2.2.2) with ⟨r, u⟩
    rw [hch] at h hk
    cases r with
    | none => cases h
    | some k =>
      obtain ⟨h3, h4, h5⟩ := hk k rfl
      refine ⟨fd, p, k, rfl, h4, ?_, h5⟩
      show (fd, p) ∈ u.2.1
      rw [h3]
      exact List.mem_cons_self

end

/-! ## Parsing -/

theorem pathlike_iff (s : Name) : pathlike s = true ↔ Pathlike s := by
  unfold pathlike Pathlike
  have h1 : s[0]? = some 47#8 ↔ [47#8] <+: s := by
    cases s with
    | nil => simp
    | cons b s => simp [eq_comm]
  have h2 := prefix_take [46#8, 47#8] s
  have h3 := prefix_take [46#8, 46#8, 47#8] s
  simp only [List.length_cons, List.length_nil] at h2 h3
  simp only [Bool.or_eq_true, decide_eq_true_eq, h1, ← h2, ← h3, or_assoc]

theorem sign_iff (o : Name) (inv : Bool) (t : Name) : Signed o inv t ↔ sign o = (inv, t) := by
  unfold sign
  constructor
  · rintro (⟨t⟩ | ⟨t⟩ | ⟨t, h⟩)
    · rfl
    · rfl
    · cases o with
      | nil => rfl
      | cons b o =>
        have h1 : b ≠ 45#8 := fun e => (h o).1 (by rw [e])
        have h2 : b ≠ 43#8 := fun e => (h o).2 (by rw [e])
        rw [if_neg (by simpa using h1), if_neg (by simpa using h2)]
  · intro h
    cases o with
    | nil =>
      cases h
      exact .none _ (fun u => ⟨by simp, by simp⟩)
    | cons b o =>
      by_cases h1 : b = 45#8
      · subst h1
        rw [if_pos (show (45#8 :: o)[0]? = some 45#8 from rfl)] at h
        cases h
        exact .minus _
      · rw [if_neg (by simpa using h1)] at h
        by_cases h2 : b = 43#8
        · subst h2
          rw [if_pos (show (43#8 :: o)[0]? = some 43#8 from rfl)] at h
          cases h
          exact .plus _
        · rw [if_neg (by simpa using h2)] at h
          cases h
          refine .none _ (fun u => ⟨fun e => h1 ?_, fun e => h2 ?_⟩)
          · cases e; rfl
          · cases e; rfl

theorem strtoull_iff (t : Name) (ht : t ≠ []) (v : Nat) : ((Number.strtoull t).2.1 = [] ∧ (Number.strtoull t).1 = v) ↔ ∃ neg n, Number.Reads t neg n [] ∧ Value neg n v := by
  constructor
  · rintro ⟨h1, h2⟩
    unfold Number.strtoull at h1 h2
    cases hs : Number.scan t with
    | none =>
      rw [hs] at h1
      exact absurd h1 ht
    | some x =>
      obtain ⟨neg, n, r⟩ := x
      rw [hs] at h1 h2
      simp only [] at h1 h2
      have hr : r = [] := by
        split at h1
        · exact h1
        · exact h1
      subst hr
      refine ⟨neg, n, (Number.scan_iff _ _ _ _).1 hs, ?_⟩
      unfold Value
      split at h2
      · rename_i hn
        rw [if_pos hn]
        simp only [] at h2
        cases neg with
        | true =>
          simp only [if_true] at h2 ⊢
          subst h2
          omega
        | false => exact h2.symm
      · rename_i hn
        rw [if_neg hn]
        exact h2.symm
  · rintro ⟨neg, n, hr, hv⟩
    have hs := (Number.scan_iff _ _ _ _).2 hr
    unfold Number.strtoull
    rw [hs]
    simp only []
    unfold Value at hv
    by_cases hn : n < 2 ^ 64
    · rw [if_pos hn] at hv ⊢
      refine ⟨rfl, ?_⟩
      cases neg with
      | true =>
        simp only [if_true] at hv ⊢
        omega
      | false => exact hv.symm
    · rw [if_neg hn] at hv ⊢
      exact ⟨rfl, hv.symm⟩

theorem reads_ne {t : Name} {neg : Bool} {n : Nat} {r : List Byte} (h : Number.Reads t neg n r) : t ≠ [] := by
  rintro rfl
  have := (Number.scan_iff _ _ _ _).2 h
  cases this

/-- Canonicalisation as specified. -/
theorem canonical_iff (realpath : Name → Option Name) (hr : ∀ p q, realpath p = some q → q ≠ []) (p : Name) (hroot : ¬ Canonical.Root p) (size : Nat) (c : Name) :
    Canonical.canonicalize realpath p size = .success c ↔
      p ≠ [] ∧ p.length < 4096 ∧ ∃ dir file, Canonical.Splits p dir file ∧ Canonical.expected realpath dir file size = .success c := by
  have hP : Canonical.PATH = 4096 := rfl
  constructor
  · intro h
    have h0 : p ≠ [] := by
      intro h0
      rw [Canonical.canonicalize_refused realpath p size (.inl h0)] at h
      cases h
    have hl : p.length < 4096 := by
      rcases Nat.lt_or_ge p.length 4096 with hl | hl
      · exact hl
      · rw [Canonical.canonicalize_refused realpath p size (.inr hl)] at h
        cases h
    obtain ⟨dir, file, hs, he⟩ := Canonical.canonicalize_exact_partial realpath hr p size hl h0 hroot
    rw [he] at h
    exact ⟨h0, hl, dir, file, hs, h⟩
  · rintro ⟨h0, hl, dir, file, hs, h⟩
    obtain ⟨dir', file', hs', he⟩ := Canonical.canonicalize_exact_partial realpath hr p size hl h0 hroot
    obtain ⟨rfl, rfl⟩ := Canonical.canonicalize_splits_unique hs hs' h0 hl
    rw [he, h]

theorem canonical_defined (realpath : Name → Option Name) (hr : ∀ p q, realpath p = some q → q ≠ []) (p : Name) (hroot : ¬ Canonical.Root p) (size : Nat) :
    Canonical.canonicalize realpath p size ≠ .undefined := by
  by_cases h : p = [] ∨ 4096 ≤ p.length
  · rw [Canonical.canonicalize_refused realpath p size h]
    intro e; cases e
  · have hP : Canonical.PATH = 4096 := rfl
    obtain ⟨dir, file, hs, he⟩ := Canonical.canonicalize_exact_partial realpath hr p size (by omega) (fun e => h (.inl e)) hroot
    rw [he]
    unfold Canonical.expected
    split
    · intro e; cases e
    · split
      · intro e; cases e
      · intro e; cases e

/-- The case of a path. -/
theorem parse_path {σ δ : Type} (w : World σ δ) (p o : Name) (hp : Pathlike (p ++ 58#8 :: o)) (ho : 58#8 ∉ o) (inv : Bool) (t : Name) (hs : Signed o inv t) (r : Result) (s : σ) :
    parse w (p ++ 58#8 :: o) r s =
      if t = [] then some ({ r with found := false }, s)
      else if (Number.strtoull t).2.1 ≠ [] then some ({ r with found := false }, s)
      else if (Number.strtoull t).1 > 0xFFFFFFFF then some ({ r with found := false }, s)
      else
        match Canonical.canonicalize w.realpath p r.buffer.length with
        | .undefined => none
        | .failure => some ({ r with found := false }, s)
        | .success c =>
          if (w.stat c).isNone then some ({ r with found := false, buffer := strcpy r.buffer c }, s)
          else some ({ found := true, buffer := strcpy r.buffer c, line := BitVec.ofNat 32 (Number.strtoull t).1, inverted := inv }, s) := by
  unfold parse
  rw [if_pos ((pathlike_iff _).2 hp), Canonical.strrchr_append _ _ ho p]
  simp only []
  have hd : (p ++ 58#8 :: o).drop (p.length + 1) = o := by simp
  have ht : (p ++ 58#8 :: o).take p.length = p := by simp
  rw [hd, ht, (sign_iff o inv t).1 hs]
  rfl

/-- The case of a name. -/
theorem parse_name {σ δ : Type} (w : World σ δ) (q : Name) (hq : ¬ Pathlike q ∨ 58#8 ∉ q) (inv : Bool) (t : Name) (hs : Signed q inv t) (r : Result) (s : σ) :
    parse w q r s =
      match find w t ROOT PREFIX { r with line := 0xFFFFFFFF#32 } s with
      | none => none
      | some (q, s) => if q.found then some ({ q with inverted := inv }, s) else some ({ r with found := false }, s) := by
  unfold parse
  have h : (if pathlike q = true then Canonical.strrchr 58#8 q else none) = none := by
    by_cases hp : Pathlike q
    · rw [if_pos ((pathlike_iff q).2 hp)]
      rcases hq with hq | hq
      · exact absurd hp hq
      · exact Canonical.strrchr_none.2 hq
    · rw [if_neg (fun e => hp ((pathlike_iff q).1 e))]
  rw [h]
  simp only []
  rw [(sign_iff q inv t).1 hs]
  rfl

theorem signed_exists (o : Name) : ∃ inv t, Signed o inv t := ⟨_, _, (sign_iff o _ _).2 rfl⟩

theorem signed_unique {o : Name} {inv inv' : Bool} {t t' : Name} (h : Signed o inv t) (h' : Signed o inv' t') : inv = inv' ∧ t = t' := by
  have e := ((sign_iff o inv t).1 h).symm.trans ((sign_iff o inv' t').1 h')
  cases e
  exact ⟨rfl, rfl⟩

end Diminuto.Line
