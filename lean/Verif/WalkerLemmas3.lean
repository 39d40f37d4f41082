import Verif.WalkerLemmas2

/-!
# Lemmas about the walk: errors
-/

namespace Diminuto.Walker

theorem named_strings {σ : Type} {sys : Sys σ} (h : Named sys) : Strings sys := fun p s names fault t e n hn => (h p s names fault t e n hn).1

theorem watched_named {σ : Type} {sys : Sys σ} (h : Named sys) : Named (watched sys) := by
  intro p s names fault t e n hn
  simp only [watched] at e
  rcases ho : sys.opendir p s.1 with ⟨res, s'⟩
  rw [ho] at e
  cases res with
  | error x => cases e
  | ok l => cases e; exact h p s.1 names fault s' ho n hn

/-- The depth is limited by the length of the path of the directory. -/
def Level (t : Name) (d : Nat) : Prop := (d = 0 ∧ t = []) ∨ (d ≠ 0 ∧ t ≠ [] ∧ 2 * (d - 1) ≤ t.length ∧ (d ≠ 1 → t.getLast? ≠ some 47#8))

theorem level_next {t n : Name} {d : Nat} (h : Level t d) (hn : n ≠ []) (hs : d ≠ 0 → 47#8 ∉ n) : Level (place t n) (d + 1) := by
  have hl : n.length ≠ 0 := fun h => hn (List.eq_nil_of_length_eq_zero h)
  rcases h with ⟨rfl, rfl⟩ | ⟨h1, h2, h3, h4⟩
  · exact .inr ⟨by omega, by rw [place, if_pos rfl]; exact hn, by omega, fun h => absurd rfl h⟩
  · have hp : place t n = under t n := by rw [place, if_neg h2]
    have hu := under_length t n
    have ht : t.length ≠ 0 := fun h => h2 (List.eq_nil_of_length_eq_zero h)
    rw [hp]
    refine .inr ⟨by omega, fun h => by rw [h, List.length_nil] at hu; omega, ?_, fun _ => under_last hn (hs h1)⟩
    by_cases hd : d = 1
    · omega
    · have : (under t n).length = t.length + 1 + n.length := by
        unfold under
        rw [if_neg (h4 hd)]
        simp
        omega
      omega

theorem level_bound {t : Name} {d : Nat} (h : Level t d) (hl : t.length ≤ 4095) : d ≤ 2048 := by
  rcases h with ⟨rfl, -⟩ | ⟨h1, h2, h3, h4⟩
  · omega
  · omega

mutual

theorem awalker_watched {σ : Type} (sys : Sys σ) (hs : Named sys) (name t : Name) (depth : Nat) (s : σ) (b : Bool) (hn : name ≠ []) (hsl : depth ≠ 0 → 47#8 ∉ name)
    (hlev : Level t depth) (hl : t.length ≤ 4095) :
    ∃ b', awalker (watched sys) name t depth (s, b) = ((awalker sys name t depth s).1, (awalker sys name t depth s).2, b') ∧
      ((awalker sys name t depth s).1 = 0 → b' = b) ∧ (b' = false → (awalker sys name t depth s).1 = 0 ∨ (awalker sys name t depth s).1 = -5) ∧ (b = true → b' = true) := by
  have hP : PATH = 4096 := rfl
  have hnl : name.length ≠ 0 := fun h => hn (List.eq_nil_of_length_eq_zero h)
  have hd := level_bound hlev hl
  rw [awalker, awalker, if_neg (by omega), if_neg (by omega), dif_neg hnl, dif_neg hnl]
  by_cases h5 : t.length + 1 + name.length + 1 > PATH
  · rw [dif_pos h5, dif_pos h5]
    exact ⟨b, rfl, (fun h => by cases h), fun _ => .inr rfl, fun h => h⟩
  rw [dif_neg h5, dif_neg h5]
  rcases hls : sys.lstat (place t name) s with ⟨res, s1⟩
  cases res with
  | error e =>
    have hls' : (watched sys).lstat (place t name) (s, b) = (.error e, s1, b || !tolerated e) := by simp only [watched, hls]
    simp only [hls']
    by_cases he : tolerated e = true
    · rw [if_pos he, if_pos he]
      exact ⟨_, rfl, fun _ => by simp [he], fun _ => .inl rfl, fun h => by simp [h]⟩
    · rw [if_neg he, if_neg he]
      exact ⟨_, rfl, (fun h => by cases h), fun h => by simp [he] at h, fun h => by simp [h]⟩
  | ok mode =>
    have hls' : (watched sys).lstat (place t name) (s, b) = (.ok mode, s1, b) := by simp only [watched, hls]
    rcases hcb : sys.callback name (place t name) depth mode s1 with ⟨rc, s2⟩
    have hcb' : (watched sys).callback name (place t name) depth mode (s1, b) = (rc, s2, b || decide (rc ≠ 0)) := by simp only [watched, hcb]
    simp only [hls', hcb, hcb']
    by_cases hr : rc ≠ 0
    · rw [if_pos hr, if_pos hr]
      exact ⟨_, rfl, fun h => absurd h hr, fun h => by simp [hr] at h, fun h => by simp [h]⟩
    rw [if_neg hr, if_neg hr]
    have hb : (b || decide (rc ≠ 0)) = b := by simp [hr]
    rw [hb]
    by_cases hd : directory mode = true
    · rw [if_pos hd, if_pos hd]
      rcases hod : sys.opendir (place t name) s2 with ⟨res, s3⟩
      cases res with
      | error e =>
        have hod' : (watched sys).opendir (place t name) (s2, b) = (.error e, s3, b || !toleratedDir e) := by simp only [watched, hod]
        simp only [hod']
        by_cases he : toleratedDir e = true
        · rw [if_pos he, if_pos he]
          exact ⟨_, rfl, fun _ => by simp [he], fun _ => .inl rfl, fun h => by simp [h]⟩
        · rw [if_neg he, if_neg he]
          exact ⟨_, rfl, (fun h => by cases h), fun h => by simp [he] at h, fun h => by simp [h]⟩
      | ok nf =>
        obtain ⟨names, fault⟩ := nf
        have hod' : (watched sys).opendir (place t name) (s2, b) = (.ok (names, fault), s3, b || fault) := by simp only [watched, hod]
        simp only [hod']
        have hpl := place_length t name
        obtain ⟨b1, he, h1, h2, h3⟩ := aentries_watched sys hs names fault (place t name) (depth + 1) s3 (b || fault) (fun n h => (hs _ _ _ _ _ hod n h).2)
          (level_next hlev hn hsl) (by omega) (by omega) (fun h => by simp [h])
        rw [he]
        simp only []
        rcases hcd : sys.closedir (place t name) (aentries sys names fault (place t name) (depth + 1) s3).2 with ⟨c, s4⟩
        have hcd' : (watched sys).closedir (place t name) ((aentries sys names fault (place t name) (depth + 1) s3).2, b1) = (c, s4, b1 || !c) := by simp only [watched, hcd]
        simp only [hcd']
        cases c with
        | true =>
          refine ⟨_, rfl, fun h => ?_, fun h => h2 (by simpa using h), fun h => by simp [h3 (by simp [h])]⟩
          obtain ⟨h4, h5⟩ := h1 h
          rw [h4, h5]
          simp
        | false => exact ⟨_, rfl, (fun h => by cases h), fun h => by simp at h, fun h => by simp⟩
    · rw [if_neg hd, if_neg hd]
      exact ⟨_, rfl, fun _ => rfl, fun _ => .inl rfl, fun h => h⟩
termination_by (PATH + 1 - t.length, 0)
decreasing_by
  have := place_length t name
  apply Prod.Lex.left
  omega

theorem aentries_watched {σ : Type} (sys : Sys σ) (hs : Named sys) (names : List Name) (fault : Bool) (t : Name) (depth : Nat) (s : σ) (b : Bool) (hsl : ∀ n ∈ names, 47#8 ∉ n)
    (hlev : Level t depth) (hd0 : depth ≠ 0) (hl : t.length ≤ 4095) (hfb : fault = true → b = true) :
    ∃ b', aentries (watched sys) names fault t depth (s, b) = ((aentries sys names fault t depth s).1, (aentries sys names fault t depth s).2, b') ∧
      ((aentries sys names fault t depth s).1 = 0 → b' = b ∧ fault = false) ∧
      (b' = false → (aentries sys names fault t depth s).1 = 0 ∨ (aentries sys names fault t depth s).1 = -5) ∧ (b = true → b' = true) := by
  cases names with
  | nil =>
    rw [aentries, aentries]
    refine ⟨b, rfl, ?_, ?_, fun h => h⟩
    · cases fault with
      | true => intro h; cases h
      | false => exact fun _ => ⟨rfl, rfl⟩
    · intro hb
      cases fault with
      | true => rw [hfb rfl] at hb; cases hb
      | false => exact .inl rfl
  | cons name names =>
    rw [aentries, aentries]
    by_cases hd : name = [] ∨ name = [46#8] ∨ name = [46#8, 46#8]
    · rw [if_pos hd, if_pos hd]
      exact aentries_watched sys hs names fault t depth s b (fun n h => hsl n (List.mem_cons_of_mem _ h)) hlev hd0 hl hfb
    · rw [if_neg hd, if_neg hd]
      obtain ⟨b1, he, h1, h2, h3⟩ := awalker_watched sys hs name t depth s b (fun h => hd (.inl h)) (fun _ => hsl name List.mem_cons_self) hlev hl
      rw [he]
      simp only []
      by_cases hr : (awalker sys name t depth s).1 = 0
      · rw [if_pos hr, if_pos hr, h1 hr]
        exact aentries_watched sys hs names fault t depth _ b (fun n h => hsl n (List.mem_cons_of_mem _ h)) hlev hd0 hl hfb
      · rw [if_neg hr, if_neg hr]
        exact ⟨b1, rfl, fun h => absurd h hr, h2, h3⟩
termination_by (PATH + 1 - t.length, names.length + 1)

end

end Diminuto.Walker
