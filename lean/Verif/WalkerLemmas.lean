import Verif.WalkerSpec

/-!
# Lemmas about the walk: the buffer always holds the path
-/

namespace Diminuto.Walker

theorem ignored_eq (e : Errno) : ignored e = tolerated e := by cases e <;> rfl

theorem ignoredDir_eq (e : Errno) : ignoredDir e = toleratedDir e := by cases e <;> rfl

theorem mode_mask (mode : BitVec 32) : mode &&& 0xF000#32 = (mode.extractLsb' 12 4).setWidth 32 <<< 12 := by
  apply BitVec.eq_of_getLsbD_eq
  intro i hi
  rw [BitVec.getLsbD_and, BitVec.getLsbD_shiftLeft, BitVec.getLsbD_setWidth, BitVec.getLsbD_extractLsb']
  have key : ∀ i < 32, BitVec.getLsbD 0xF000#32 i = decide (12 ≤ i ∧ i < 16) := by decide
  rw [key i hi]
  by_cases h1 : i < 12
  · have : ¬ (12 ≤ i ∧ i < 16) := by omega
    simp [this, h1]
  · by_cases h2 : i < 16
    · have : 12 ≤ i ∧ i < 16 := by omega
      have h3 : i - 12 < 4 := by omega
      have h4 : i - 12 < 32 := by omega
      simp [this, h1, hi, h3, h4, show 12 + (i - 12) = i from by omega]
    · have : ¬ (12 ≤ i ∧ i < 16) := by omega
      have h3 : ¬ i - 12 < 4 := by omega
      simp [this, h3]

theorem isDir_eq (mode : BitVec 32) : isDir mode = directory mode := by
  unfold isDir directory
  rw [mode_mask]
  generalize mode.extractLsb' 12 4 = k
  revert k
  decide +kernel

/-- The path of an entry, and the root itself if there is no directory. -/
def place (t name : Name) : Name := if t = [] then name else under t name

theorem under_length (t name : Name) : t.length + name.length ≤ (under t name).length ∧ (under t name).length ≤ t.length + 1 + name.length := by
  unfold under
  split <;> simp <;> omega

theorem place_length (t name : Name) : t.length + name.length ≤ (place t name).length ∧ (place t name).length ≤ t.length + 1 + name.length := by
  unfold place
  split
  · rename_i h
    subst h
    simp
  · exact under_length t name

theorem place_prefix (t name : Name) (hn : name ≠ []) : ∃ y z, place t name = t ++ y :: z := by
  unfold place
  split
  · rename_i h
    subst h
    cases name with
    | nil => exact absurd rfl hn
    | cons y z => exact ⟨y, z, rfl⟩
  · unfold under
    split
    · cases name with
      | nil => exact absurd rfl hn
      | cons y z => exact ⟨y, z, rfl⟩
    · exact ⟨_, _, rfl⟩

theorem place_nul (t name : Name) (ht : 0#8 ∉ t) (hn : 0#8 ∉ name) : 0#8 ∉ place t name := by
  unfold place under
  split
  · exact hn
  · split <;> simp [ht, hn]

mutual

/-- The walk on paths instead of the buffer. -/
def awalker {σ : Type} (sys : Sys σ) (name : Name) (t : Name) (depth : Nat) (s : σ) : Int × σ :=
  if depth > PATH / 2 then (-3, s)
  else if h4 : name.length = 0 then (-4, s)
  else if h5 : t.length + 1 + name.length + 1 > PATH then (-5, s)
  else
    match sys.lstat (place t name) s with
    | (.error e, s) => if tolerated e then (0, s) else (-6, s)
    | (.ok mode, s) =>
      match sys.callback name (place t name) depth mode s with
      | (rc, s) =>
        if rc ≠ 0 then (rc, s)
        else if directory mode then
          match sys.opendir (place t name) s with
          | (.error e, s) => if toleratedDir e then (0, s) else (-7, s)
          | (.ok (names, fault), s) =>
            match aentries sys names fault (place t name) (depth + 1) s with
            | (xc, s) =>
              match sys.closedir (place t name) s with
              | (true, s) => (xc, s)
              | (false, s) => (-9, s)
        else (0, s)
termination_by (PATH + 1 - t.length, 0)
decreasing_by
  have := place_length t name
  apply Prod.Lex.left
  omega

def aentries {σ : Type} (sys : Sys σ) (names : List Name) (fault : Bool) (t : Name) (depth : Nat) (s : σ) : Int × σ :=
  match names with
  | [] => (if fault then -8 else 0, s)
  | name :: names =>
    if name = [] ∨ name = [46#8] ∨ name = [46#8, 46#8] then aentries sys names fault t depth s
    else
      match awalker sys name t depth s with
      | (rc, s) => if rc = 0 then aentries sys names fault t depth s else (rc, s)
termination_by (PATH + 1 - t.length, names.length + 1)

end

theorem text_append (t rest : List Byte) (h : 0#8 ∉ t) : text (t ++ 0#8 :: rest) = t := by
  unfold text
  rw [List.takeWhile_append_of_pos]
  · simp
  · intro b hb
    apply decide_eq_true
    rintro rfl
    exact h hb

theorem put_append (t z : List Byte) (y b : Byte) : put (t ++ y :: z) t.length b = some (t ++ b :: z) := by
  unfold put
  rw [if_pos (by simp)]
  simp

theorem strcat_append (t rest name : List Byte) (h : 0#8 ∉ t) (hl : name.length ≤ rest.length) :
    strcat (t ++ 0#8 :: rest) name = some (t ++ (name ++ 0#8 :: rest.drop name.length)) := by
  unfold strcat
  rw [text_append t rest h]
  simp only []
  rw [if_pos (by simp; omega), List.take_left]
  congr 3
  rw [show t.length + name.length + 1 = t.length + (name.length + 1) from by omega, List.drop_append]
  simp

theorem getLast_index (t rest : List Byte) (ht : t ≠ []) : (t ++ rest)[t.length - 1]? = t.getLast? := by
  have : t.length ≠ 0 := fun h => ht (List.eq_nil_of_length_eq_zero h)
  rw [List.getElem?_append_left (by omega), List.getLast?_eq_getElem?]

theorem separated_append (t rest : List Byte) (name : Name) : separated (t ++ 0#8 :: rest) t.length + name.length = (place t name).length := by
  unfold separated place
  by_cases ht : t = []
  · subst ht
    simp
  · have : t.length ≠ 0 := fun h => ht (List.eq_nil_of_length_eq_zero h)
    rw [if_neg this, if_neg ht, getLast_index t _ ht]
    unfold under
    split <;> simp
    omega

theorem build_append (t rest : List Byte) (name : Name) (h : 0#8 ∉ t) (hl : t.length + 1 + name.length + 1 ≤ (t ++ 0#8 :: rest).length) :
    ∃ rest', ((separate (t ++ 0#8 :: rest) t.length).bind fun p => strcat p name) = some (place t name ++ 0#8 :: rest') ∧
      (place t name ++ 0#8 :: rest').length = (t ++ 0#8 :: rest).length := by
  simp only [List.length_append, List.length_cons] at hl ⊢
  unfold separate place
  by_cases ht : t = []
  · subst ht
    refine ⟨rest.drop name.length, ?_, ?_⟩
    · rw [if_pos rfl]
      show strcat (0#8 :: rest) name = _
      have := strcat_append [] rest name (by simp) (by simp at hl; omega)
      exact this
    · simp at hl ⊢
      omega
  · have hz : t.length ≠ 0 := fun h => ht (List.eq_nil_of_length_eq_zero h)
    rw [if_neg hz, getLast_index t _ ht]
    simp only [if_neg ht]
    cases hg : t.getLast? with
    | none => exact absurd (List.getLast?_eq_none_iff.1 hg) ht
    | some b =>
      simp only []
      unfold under
      rw [hg]
      by_cases hb : b = 47#8
      · subst hb
        rw [if_pos rfl, if_pos rfl]
        refine ⟨rest.drop name.length, ?_, ?_⟩
        · show strcat _ name = _
          rw [strcat_append t rest name h (by omega), List.append_assoc]
        · simp
          omega
      · rw [if_neg hb, if_neg (fun e => hb (Option.some.inj e)), put_append]
        cases rest with
        | nil => simp at hl; omega
        | cons c rest =>
          simp only [List.length_cons] at hl
          refine ⟨rest.drop name.length, ?_, ?_⟩
          · show (put (t ++ 47#8 :: c :: rest) (t.length + 1) 0#8).bind _ = _
            have := put_append (t ++ [47#8]) rest c 0#8
            simp only [List.length_append, List.length_singleton, List.append_assoc, List.singleton_append] at this
            rw [this]
            show strcat (t ++ 47#8 :: 0#8 :: rest) name = _
            have := strcat_append (t ++ [47#8]) rest name (by simp [h]) (by omega)
            simp only [List.append_assoc, List.singleton_append] at this
            rw [this]
            simp
          · simp
            omega

/-- The names are strings. -/
def Strings {σ : Type} (sys : Sys σ) : Prop := ∀ p s names fault t, sys.opendir p s = (.ok (names, fault), t) → ∀ n ∈ names, 0#8 ∉ n

mutual

theorem walker_eq {σ : Type} (sys : Sys σ) (hs : Strings sys) (name t rest : Name) (depth : Nat) (s : σ) (ht : 0#8 ∉ t) (hn : 0#8 ∉ name)
    (hl : (t ++ 0#8 :: rest).length = PATH) :
    ∃ x rest', walker sys name (t ++ 0#8 :: rest) t.length depth s = some ((awalker sys name t depth s).1, t ++ x :: rest', (awalker sys name t depth s).2) ∧
      (t ++ x :: rest').length = PATH ∧ ((awalker sys name t depth s).1 = 0 → x = 0#8) := by
  rw [walker, awalker]
  by_cases h3 : depth > PATH / 2
  · rw [if_pos h3, if_pos h3]
    exact ⟨0#8, rest, rfl, hl, fun _ => rfl⟩
  rw [if_neg h3, if_neg h3]
  have hP : PATH = 4096 := rfl
  by_cases h4 : name.length = 0
  · rw [dif_pos (by omega), dif_pos h4]
    exact ⟨0#8, rest, rfl, hl, fun _ => rfl⟩
  rw [dif_neg (by omega), dif_neg h4]
  by_cases h5 : t.length + 1 + name.length + 1 > PATH
  · rw [dif_pos (by omega), dif_pos h5]
    exact ⟨0#8, rest, rfl, hl, fun _ => rfl⟩
  rw [dif_neg (by omega), dif_neg h5]
  obtain ⟨rest2, hb, hl2⟩ := build_append t rest name ht (by omega)
  rw [hb]
  simp only [ignored_eq, ignoredDir_eq, isDir_eq]
  rw [text_append _ _ (place_nul t name ht hn)]
  obtain ⟨y, z, hp⟩ := place_prefix t name (fun e => h4 (by rw [e]; rfl))
  have back : ∀ x w, put (place t name ++ x :: w) t.length 0#8 = some (t ++ 0#8 :: (z ++ x :: w)) := by
    intro x w
    rw [hp, List.append_assoc]
    exact put_append t (z ++ x :: w) y 0#8
  have len : ∀ x w b, (place t name ++ x :: w).length = PATH → (t ++ b :: (z ++ x :: w)).length = PATH := by
    intro x w b h
    rw [hp] at h
    simp at h ⊢
    omega
  have same : ∀ x w, place t name ++ x :: w = t ++ y :: (z ++ x :: w) := by
    intro x w
    rw [hp]
    simp
  rcases hls : sys.lstat (place t name) s with ⟨res, s1⟩
  cases res with
  | error e =>
    simp only []
    by_cases he : tolerated e = true
    · rw [if_pos he, if_pos he, back]
      exact ⟨_, _, rfl, len _ _ _ (hl2.trans hl), fun _ => rfl⟩
    · rw [if_neg he, if_neg he, same]
      exact ⟨_, _, rfl, len _ _ _ (hl2.trans hl), fun h => by cases h⟩
  | ok mode =>
    rcases hcb : sys.callback name (place t name) depth mode s1 with ⟨rc, s2⟩
    simp only [hcb]
    by_cases hr : rc ≠ 0
    · rw [if_pos hr, if_pos hr, same]
      exact ⟨_, _, rfl, len _ _ _ (hl2.trans hl), fun h => absurd h hr⟩
    rw [if_neg hr, if_neg hr]
    by_cases hd : directory mode = true
    · rw [if_pos hd, if_pos hd]
      rcases hod : sys.opendir (place t name) s2 with ⟨res, s3⟩
      cases res with
      | error e =>
        simp only []
        by_cases he : toleratedDir e = true
        · rw [if_pos he, if_pos he, back]
          exact ⟨_, _, rfl, len _ _ _ (hl2.trans hl), fun _ => rfl⟩
        · rw [if_neg he, if_neg he, same]
          exact ⟨_, _, rfl, len _ _ _ (hl2.trans hl), fun h => by cases h⟩
      | ok nf =>
        obtain ⟨names, fault⟩ := nf
        simp only []
        obtain ⟨x, rest3, he, hl3, hx⟩ := entries_eq sys hs names fault (place t name) rest2 (depth + 1) s3 (place_nul t name ht hn) (hs _ _ _ _ _ hod) (hl2.trans hl)
        rw [Nat.min_eq_left (by omega), separated_append, he]
        simp only []
        rw [back]
        simp only []
        rcases sys.closedir (place t name) (aentries sys names fault (place t name) (depth + 1) s3).2 with ⟨b, s4⟩
        cases b with
        | true => exact ⟨_, _, rfl, len _ _ _ hl3, fun _ => rfl⟩
        | false => exact ⟨_, _, rfl, len _ _ _ hl3, fun h => rfl⟩
    · rw [if_neg hd, if_neg hd, back]
      exact ⟨_, _, rfl, len _ _ _ (hl2.trans hl), fun _ => rfl⟩
termination_by (PATH + 1 - t.length, 0)
decreasing_by
  have := place_length t name
  apply Prod.Lex.left
  omega

theorem entries_eq {σ : Type} (sys : Sys σ) (hs : Strings sys) (names : List Name) (fault : Bool) (t rest : Name) (depth : Nat) (s : σ) (ht : 0#8 ∉ t) (hn : ∀ n ∈ names, 0#8 ∉ n)
    (hl : (t ++ 0#8 :: rest).length = PATH) :
    ∃ x rest', entries sys names fault (t ++ 0#8 :: rest) t.length depth s = some ((aentries sys names fault t depth s).1, t ++ x :: rest', (aentries sys names fault t depth s).2) ∧
      (t ++ x :: rest').length = PATH ∧ ((aentries sys names fault t depth s).1 = 0 → x = 0#8) := by
  cases names with
  | nil =>
    rw [entries, aentries]
    exact ⟨_, _, rfl, hl, fun _ => rfl⟩
  | cons name names =>
    rw [entries, aentries]
    by_cases hd : name = [] ∨ name = [46#8] ∨ name = [46#8, 46#8]
    · rw [if_pos hd, if_pos hd]
      exact entries_eq sys hs names fault t rest depth s ht (fun n h => hn n (List.mem_cons_of_mem _ h)) hl
    · rw [if_neg hd, if_neg hd]
      obtain ⟨x, rest2, he, hl2, hx⟩ := walker_eq sys hs name t rest depth s ht (hn name List.mem_cons_self) hl
      rw [he]
      simp only []
      by_cases hr : (awalker sys name t depth s).1 = 0
      · rw [if_pos hr, if_pos hr]
        have := hx hr
        subst this
        exact entries_eq sys hs names fault t rest2 depth _ ht (fun n h => hn n (List.mem_cons_of_mem _ h)) hl2
      · rw [if_neg hr, if_neg hr]
        exact ⟨_, _, rfl, hl2, fun h => absurd h hr⟩
termination_by (PATH + 1 - t.length, names.length + 1)

end

theorem walk_eq {σ : Type} (sys : Sys σ) (hs : Strings sys) (real : Name) (s : σ) (hn : 0#8 ∉ real) :
    ∃ path, walk sys (some real) s = some ((awalker sys real [] 0 s).1, path, (awalker sys real [] 0 s).2) ∧ path.length = PATH ∧
      ((awalker sys real [] 0 s).1 = 0 → text path = []) := by
  have hP : List.replicate PATH 0#8 = [] ++ 0#8 :: List.replicate 4095 0#8 := rfl
  obtain ⟨x, rest, he, hl, hx⟩ := walker_eq sys hs real [] (List.replicate 4095 0#8) 0 s (by simp) hn (by rw [List.nil_append, List.length_cons, List.length_replicate]; rfl)
  refine ⟨x :: rest, ?_, hl, fun h => ?_⟩
  · unfold walk
    simp only []
    rw [hP]
    exact he
  · rw [hx h]
    rfl

end Diminuto.Walker
