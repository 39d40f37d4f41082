import Verif.ListingSpec
import Verif.WalkerProps

/-! # Lemmas about the tool that lists a part of the file system -/

namespace Diminuto.Listing

open Walker

theorem printing_named {σ : Type} {sys : Sys σ} (h : Named sys) : Named (printing sys) := by
  intro p s names fault t e n hn
  simp only [printing] at e
  rcases ho : sys.opendir p s.1 with ⟨res, s'⟩
  rw [ho] at e
  cases e
  exact h p s.1 names fault s' ho n hn

mutual

theorem awalker_range {σ : Type} (sys : Sys σ) (name t : Name) (depth : Nat) (s : σ × List Byte) :
    -9 ≤ (awalker (printing sys) name t depth s).1 ∧ (awalker (printing sys) name t depth s).1 ≤ 0 := by
  rw [awalker]
  split
  · exact ⟨by simp, by simp⟩
  split
  · exact ⟨by simp, by simp⟩
  split
  · exact ⟨by simp, by simp⟩
  rename_i h3 h4 h5
  rcases hls : (printing sys).lstat (place t name) s with ⟨res, s1⟩
  cases res with
  | error e =>
    simp only []
    split <;> exact ⟨by simp, by simp⟩
  | ok mode =>
    rcases hcb : (printing sys).callback name (place t name) depth mode s1 with ⟨rc, s2⟩
    have hr : rc = 0 := by
      simp only [printing] at hcb
      cases hcb
      rfl
    subst hr
    simp only [hcb]
    rw [if_neg (by simp)]
    split
    · rcases hod : (printing sys).opendir (place t name) s2 with ⟨res, s3⟩
      cases res with
      | error e =>
        simp only []
        split <;> exact ⟨by simp, by simp⟩
      | ok nf =>
        obtain ⟨names, fault⟩ := nf
        simp only []
        have := aentries_range sys names fault (place t name) (depth + 1) s3
        rcases hcd : (printing sys).closedir (place t name) (aentries (printing sys) names fault (place t name) (depth + 1) s3).2 with ⟨c, s4⟩
        cases c with
        | true => exact this
        | false => exact ⟨by simp, by simp⟩
    · exact ⟨by simp, by simp⟩
termination_by (PATH + 1 - t.length, 0)
decreasing_by
  have := place_length t name
  apply Prod.Lex.left
  omega

theorem aentries_range {σ : Type} (sys : Sys σ) (names : List Name) (fault : Bool) (t : Name) (depth : Nat) (s : σ × List Byte) :
    -9 ≤ (aentries (printing sys) names fault t depth s).1 ∧ (aentries (printing sys) names fault t depth s).1 ≤ 0 := by
  cases names with
  | nil =>
    rw [aentries]
    cases fault <;> exact ⟨by simp, by simp⟩
  | cons name names =>
    rw [aentries]
    split
    · exact aentries_range sys names fault t depth s
    · have h := awalker_range sys name t depth s
      rcases hw : awalker (printing sys) name t depth s with ⟨rc, s1⟩
      rw [hw] at h
      simp only []
      split
      · exact aentries_range sys names fault t depth s1
      · exact h
termination_by (PATH + 1 - t.length, names.length + 1)

end

/-- A walk that prints is defined and what it returns is zero or one of the codes. -/
theorem walk_range {σ : Type} (sys : Sys σ) (hs : Named sys) (real : Option Name) (s : σ × List Byte) (hr : ∀ n, real = some n → 0#8 ∉ n) :
    ∃ r path s', walk (printing sys) real s = some (r, path, s') ∧ -9 ≤ r ∧ r ≤ 0 := by
  cases real with
  | none => exact ⟨-2, _, s, rfl, by decide, by decide⟩
  | some n =>
    obtain ⟨path, h, -, -⟩ := walk_eq (printing sys) (named_strings (printing_named hs)) n s (hr n rfl)
    have := awalker_range sys n [] 0 s
    exact ⟨_, path, _, h, this.1, this.2⟩

mutual

/-- A walk over another representation of the state. -/
theorem awalker_map {σ τ : Type} (a : Sys σ) (b : Sys τ) (h : σ → τ)
    (h1 : ∀ p s, b.lstat p (h s) = ((a.lstat p s).1, h (a.lstat p s).2)) (h2 : ∀ p s, b.opendir p (h s) = ((a.opendir p s).1, h (a.opendir p s).2))
    (h3 : ∀ p s, b.closedir p (h s) = ((a.closedir p s).1, h (a.closedir p s).2))
    (h4 : ∀ n p d m s, b.callback n p d m (h s) = ((a.callback n p d m s).1, h (a.callback n p d m s).2)) (name t : Name) (depth : Nat) (s : σ) :
    awalker b name t depth (h s) = ((awalker a name t depth s).1, h (awalker a name t depth s).2) := by
  rw [awalker, awalker]
  by_cases g3 : depth > PATH / 2
  · rw [if_pos g3, if_pos g3]
  rw [if_neg g3, if_neg g3]
  by_cases g4 : name.length = 0
  · rw [dif_pos g4, dif_pos g4]
  rw [dif_neg g4, dif_neg g4]
  by_cases g5 : t.length + 1 + name.length + 1 > PATH
  · rw [dif_pos g5, dif_pos g5]
  rw [dif_neg g5, dif_neg g5, h1]
  rcases hls : a.lstat (place t name) s with ⟨res, s1⟩
  cases res with
  | error e =>
    simp only []
    split <;> rfl
  | ok mode =>
    have hcb' := h4 name (place t name) depth mode s1
    rcases hcb : a.callback name (place t name) depth mode s1 with ⟨rc, s2⟩
    rw [hcb] at hcb'
    simp only [hcb, hcb']
    by_cases g6 : rc ≠ 0
    · rw [if_pos g6, if_pos g6]
    rw [if_neg g6, if_neg g6]
    by_cases g7 : directory mode = true
    · rw [if_pos g7, if_pos g7, h2]
      rcases hod : a.opendir (place t name) s2 with ⟨res, s3⟩
      cases res with
      | error e =>
        simp only []
        split <;> rfl
      | ok nf =>
        obtain ⟨names, fault⟩ := nf
        simp only []
        rw [aentries_map a b h h1 h2 h3 h4 names fault (place t name) (depth + 1) s3]
        simp only []
        rw [h3]
        rcases hcd : a.closedir (place t name) (aentries a names fault (place t name) (depth + 1) s3).2 with ⟨c, s4⟩
        simp only []
        cases c <;> rfl
    · rw [if_neg g7, if_neg g7]
termination_by (PATH + 1 - t.length, 0)
decreasing_by
  have := place_length t name
  apply Prod.Lex.left
  omega

theorem aentries_map {σ τ : Type} (a : Sys σ) (b : Sys τ) (h : σ → τ)
    (h1 : ∀ p s, b.lstat p (h s) = ((a.lstat p s).1, h (a.lstat p s).2)) (h2 : ∀ p s, b.opendir p (h s) = ((a.opendir p s).1, h (a.opendir p s).2))
    (h3 : ∀ p s, b.closedir p (h s) = ((a.closedir p s).1, h (a.closedir p s).2))
    (h4 : ∀ n p d m s, b.callback n p d m (h s) = ((a.callback n p d m s).1, h (a.callback n p d m s).2)) (names : List Name) (fault : Bool) (t : Name) (depth : Nat) (s : σ) :
    aentries b names fault t depth (h s) = ((aentries a names fault t depth s).1, h (aentries a names fault t depth s).2) := by
  cases names with
  | nil => rw [aentries, aentries]
  | cons name names =>
    rw [aentries, aentries]
    by_cases g : name = [] ∨ name = [46#8] ∨ name = [46#8, 46#8]
    · rw [if_pos g, if_pos g]
      exact aentries_map a b h h1 h2 h3 h4 names fault t depth s
    · rw [if_neg g, if_neg g, awalker_map a b h h1 h2 h3 h4 name t depth s]
      rcases hw : awalker a name t depth s with ⟨rc, s1⟩
      simp only []
      by_cases g2 : rc = 0
      · rw [if_pos g2, if_pos g2]
        exact aentries_map a b h h1 h2 h3 h4 names fault t depth s1
      · rw [if_neg g2, if_neg g2]
termination_by (PATH + 1 - t.length, names.length + 1)

end

/-- The text for some visits. -/
def listing (vs : List Visit) : List Byte := vs.flatMap fun v => line v.name v.depth v.mode

theorem still_strings {fs : Fs} (hs : ∀ p names, fs.names p = .ok names → ∀ m ∈ names, 0#8 ∉ m) : Strings (printing (still fs)) := by
  intro p s names fault t h n hn
  simp only [printing, still] at h
  cases hl : fs.names p with
  | error x => rw [hl] at h; cases h
  | ok l => rw [hl] at h; cases h; exact hs _ _ hl n hn

theorem stopped_zero (vs log : List Visit) : stopped (fun _ _ => 0) log vs = (0, log ++ vs) := by
  induction vs generalizing log with
  | nil => simp [stopped]
  | cons v vs ih =>
    rw [stopped, if_neg (by simp), ih]
    simp

/-- What a walk over the items prints. -/
theorem walk_listing {fs : Fs} {root : Name} (h0 : root ≠ []) (h1 : 0#8 ∉ root) (hs : ∀ p names, fs.names p = .ok names → ∀ m ∈ names, 0#8 ∉ m) {vs : List Visit} (hw : W fs (.obj root root 0) vs) (out : List Byte) :
    ∃ path, walk (printing (still fs)) (some root) ((), out) = some (0, path, (), out ++ listing vs) := by
  obtain ⟨path, h, -, -⟩ := walk_eq (printing (still fs)) (still_strings hs) root ((), out) h1
  have e := walker_w (f := fun _ _ => 0) hw [] [] (by rw [place, if_pos rfl]) h0
  rw [stopped_zero] at e
  have m := awalker_map (fs.sys fun _ _ => 0) (printing (still fs)) (fun log => ((), out ++ listing log)) (fun _ _ => rfl) (fun _ _ => rfl) (fun _ _ => rfl)
    (fun n p d m s => by simp [printing, still, Fs.sys, listing]) root [] 0 []
  simp only [listing, List.flatMap_nil, List.append_nil] at m
  rw [m, e] at h
  exact ⟨path, h⟩

theorem lines_line (l t : List Byte) (h : 10#8 ∉ l) : lines (l ++ 10#8 :: t) = l :: lines t := by
  induction l with
  | nil => simp [lines]
  | cons c l ih =>
    rw [List.cons_append, lines, if_neg (fun e => h (by simp [e])), ih (fun g => h (List.mem_cons_of_mem _ g))]

/-- The line for a visit, without the newline. -/
def text (v : Visit) : List Byte :=
  List.replicate v.depth 32#8 ++ v.name ++ (if v.name.getLast? = some 47#8 then [] else if directory v.mode then [47#8] else [])

theorem line_text (v : Visit) (h : v.name ≠ []) : line v.name v.depth v.mode = text v ++ [10#8] := by
  have hl : v.name.length ≠ 0 := fun g => h (List.eq_nil_of_length_eq_zero g)
  rw [line, text, if_neg hl, isDir_eq, List.getLast?_eq_getElem?]
  cases directory v.mode <;> simp

theorem text_newline (v : Visit) (h : 10#8 ∉ v.name) : 10#8 ∉ text v := by
  intro g
  simp only [text, List.mem_append, List.mem_replicate] at g
  rcases g with (⟨-, g⟩ | g) | g
  · cases g
  · exact h g
  · split at g
    · cases g
    · split at g
      · simp at g
      · cases g

theorem lines_listing (vs : List Visit) (h : ∀ v ∈ vs, v.name ≠ [] ∧ 10#8 ∉ v.name) : lines (listing vs) = vs.map text := by
  induction vs with
  | nil => rfl
  | cons v vs ih =>
    have hv := h v List.mem_cons_self
    rw [listing, List.flatMap_cons, line_text v hv.1, List.append_assoc, List.singleton_append, lines_line _ _ (text_newline v hv.2), List.map_cons]
    congr 1
    exact ih fun w hw => h w (List.mem_cons_of_mem _ hw)

theorem drop_spaces (d : Nat) (t : List Byte) (h : t.head? ≠ some 32#8) : (List.replicate d 32#8 ++ t).dropWhile (· = 32#8) = t := by
  induction d with
  | zero =>
    cases t with
    | nil => rfl
    | cons c t =>
      have : c ≠ 32#8 := fun e => h (by simp [e])
      simp [this]
  | succ d ih =>
    rw [List.replicate_succ, List.cons_append, List.dropWhile_cons, if_pos (by simp)]
    exact ih

/-- What the line of an object says. -/
theorem parse_text (v : Visit) (h : v.name ≠ []) (hs : v.name.head? ≠ some 32#8) (hl : v.name.getLast? ≠ some 47#8) : parse (text v) = (v.depth, v.name, directory v.mode) := by
  have hh : ∀ x, (v.name ++ x).head? ≠ some 32#8 := by
    intro x
    cases hn : v.name with
    | nil => exact absurd hn h
    | cons c t =>
      rw [hn] at hs
      simpa using hs
  rw [text, if_neg hl, List.append_assoc, parse, drop_spaces _ _ (hh _)]
  cases hd : directory v.mode with
  | true => simp
  | false =>
    simp [hl]

/-- The root of the file system. -/
theorem parse_root (v : Visit) (h : v.name = [47#8]) (hd : v.depth = 0) : parse (text v) = (0, [], true) := by
  rw [text, h, hd]
  rfl

/-- Reading a listing. -/
theorem paths_w {fs : Fs} {root : Name} (hroot : Plain root) (h0 : root ≠ []) (hend : root.getLast? = some 47#8 → root = [47#8])
    (hslash : root = [47#8] → ∀ m, fs.mode root = .ok m → directory m = true)
    (hn : ∀ p names, fs.names p = .ok names → ∀ m ∈ names, 47#8 ∉ m ∧ Plain m) {i : Item} {vs : List Visit} (h : W fs i vs) :
    match i with
    | .obj p n d => ∀ above rest, d ≤ above.length → ((d = 0 ∧ p = root ∧ n = root) ∨ (∃ q, (above.take d).getLast? = some q ∧ p = under q n ∧ Proper n ∧ 47#8 ∉ n ∧ Plain n)) →
        (∀ v ∈ vs, v.name ≠ [] ∧ 10#8 ∉ v.name) ∧
        ∃ above', paths (vs.map text ++ rest) above = vs.map (fun v => (v.path, directory v.mode)) ++ paths rest above' ∧ above'.take d = above.take d ∧ d ≤ above'.length
    | .list p d l => ∀ above rest, d ≤ above.length → (above.take d).getLast? = some p → (∀ m ∈ l, 47#8 ∉ m ∧ Plain m) →
        (∀ v ∈ vs, v.name ≠ [] ∧ 10#8 ∉ v.name) ∧
        ∃ above', paths (vs.map text ++ rest) above = vs.map (fun v => (v.path, directory v.mode)) ++ paths rest above' ∧ above'.take d = above.take d ∧ d ≤ above'.length := by
  have one : ∀ (p n : Name) (d : Nat) (m : BitVec 32) (above : List Name) (ls : List (List Byte)), d ≤ above.length → fs.mode p = .ok m →
      ((d = 0 ∧ p = root ∧ n = root) ∨ (∃ q, (above.take d).getLast? = some q ∧ p = under q n ∧ Proper n ∧ 47#8 ∉ n ∧ Plain n)) →
      (n ≠ [] ∧ 10#8 ∉ n) ∧ paths (text ⟨n, p, d, m⟩ :: ls) above = (p, directory m) :: paths ls (above.take d ++ [p]) := by
    rintro p n d m above ls hd hm (⟨rfl, rfl, rfl⟩ | ⟨q, hq, rfl, hp, hsl, hpl⟩)
    · refine ⟨⟨h0, hroot.1⟩, ?_⟩
      rw [paths]
      by_cases e : n.getLast? = some 47#8
      · rw [parse_root ⟨n, n, 0, m⟩ (hend e) rfl, hslash (hend e) m hm, hend e]
        rfl
      · rw [parse_text ⟨n, n, 0, m⟩ h0 hroot.2 e]
        simp [h0]
    · refine ⟨⟨hp.1, hpl.1⟩, ?_⟩
      have e : n.getLast? ≠ some 47#8 := fun g => hsl (List.mem_of_getLast? g)
      rw [paths, parse_text ⟨n, _, d, m⟩ hp.1 hpl.2 e]
      simp only [hq]
  induction h with
  | gone hp hd hm he =>
    intro above rest ha _
    exact ⟨fun v hv => absurd hv (by simp), above, rfl, rfl, ha⟩
  | @file p n d m hp hd hm he =>
    intro above rest ha hc
    obtain ⟨h1, h2⟩ := one p n d m above rest ha hm hc
    refine ⟨fun v hv => ?_, above.take d ++ [p], h2, ?_, ?_⟩
    · rw [List.mem_singleton] at hv
      subst hv
      exact h1
    · rw [List.take_append_of_le_length (by simp; omega), List.take_take, Nat.min_self]
    · simp
      omega
  | @denied p n d m e hp hd hm he hne hte =>
    intro above rest ha hc
    obtain ⟨h1, h2⟩ := one p n d m above rest ha hm hc
    refine ⟨fun v hv => ?_, above.take d ++ [p], h2, ?_, ?_⟩
    · rw [List.mem_singleton] at hv
      subst hv
      exact h1
    · rw [List.take_append_of_le_length (by simp; omega), List.take_take, Nat.min_self]
    · simp
      omega
  | @dir p n d m l vs hp hd hm he hl hw ih =>
    intro above rest ha hc
    obtain ⟨h1, h2⟩ := one p n d m above (vs.map text ++ rest) ha hm hc
    have hlen : (above.take d ++ [p]).length = d + 1 := by
      simp
      omega
    obtain ⟨h3, above', h4, h5, h6⟩ := ih (above.take d ++ [p]) rest (by omega) (by rw [List.take_of_length_le (by omega)]; simp) (hn p l hl)
    refine ⟨fun v hv => ?_, above', ?_, ?_, by omega⟩
    · rcases List.mem_cons.1 hv with rfl | hv
      · exact h1
      · exact h3 v hv
    · rw [List.map_cons, List.cons_append, h2, h4]
      rfl
    · have := congrArg (List.take d) h5
      rw [List.take_take, List.take_take, Nat.min_eq_left (by omega), List.take_append_of_le_length (by simp; omega), List.take_take, Nat.min_self] at this
      exact this
  | nil =>
    intro above rest ha _ _
    exact ⟨fun v hv => absurd hv (by simp), above, rfl, rfl, ha⟩
  | skip hp hw ih =>
    intro above rest ha hq hl
    exact ih above rest ha hq fun m hm => hl m (List.mem_cons_of_mem _ hm)
  | @cons p n d l us vs hp hu hv ihu ihv =>
    intro above rest ha hq hl
    have hm := hl n List.mem_cons_self
    obtain ⟨h1, a1, h2, h3, h4⟩ := ihu above (vs.map text ++ rest) ha (.inr ⟨p, hq, rfl, hp, hm.1, hm.2⟩)
    obtain ⟨h5, a2, h6, h7, h8⟩ := ihv a1 rest h4 (by rw [h3]; exact hq) fun m hm => hl m (List.mem_cons_of_mem _ hm)
    refine ⟨fun v hv => ?_, a2, ?_, by rw [h7, h3], h8⟩
    · rcases List.mem_append.1 hv with hv | hv
      · exact h1 v hv
      · exact h5 v hv
    · rw [List.map_append, List.append_assoc, h2, h6, List.map_append, List.append_assoc]

/-- The loop is a walk for each of the arguments. -/
theorem loop_walked {σ : Type} (sys : Sys σ) (hs : Named sys) (real : σ → Name → Option Name) (hr : ∀ s a n, real s a = some n → 0#8 ∉ n) (args : List Name) (xc : Int) (s : σ × List Byte)
    (hx : -9 ≤ xc ∧ xc ≤ 0) :
    ∃ r rs t, loop sys real args xc s = some (r, t) ∧ Walked sys real args s rs t ∧ r = ((xc :: rs).find? (· ≠ 0)).getD 0 ∧ -9 ≤ r ∧ r ≤ 0 := by
  induction args generalizing xc s with
  | nil =>
    refine ⟨xc, [], s, rfl, .nil, ?_, hx⟩
    by_cases h : xc = 0 <;> simp [h]
  | cons arg args ih =>
    obtain ⟨r, path, t, h, h1, h2⟩ := walk_range sys hs (real s.1 arg) s (hr s.1 arg)
    by_cases hz : xc = 0
    · obtain ⟨q, rs, u, g1, g2, g3, g4⟩ := ih r t ⟨h1, h2⟩
      refine ⟨q, r :: rs, u, ?_, .cons h g2, ?_, g4⟩
      · rw [loop, h, Option.bind_some, if_pos hz]
        exact g1
      · rw [g3, hz]
        simp
    · obtain ⟨q, rs, u, g1, g2, g3, g4⟩ := ih xc t hx
      refine ⟨q, r :: rs, u, ?_, .cons h g2, ?_, g4⟩
      · rw [loop, h, Option.bind_some, if_neg hz]
        exact g1
      · rw [g3]
        simp [hz]

end Diminuto.Listing
