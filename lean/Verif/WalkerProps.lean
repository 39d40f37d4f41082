import Verif.WalkerLemmas3

/-!
# Properties of the walk through the file system
-/

namespace Diminuto.Walker

/-- Whatever the system calls and the callback do, `diminuto_fs_walk` returns, does not write or read out of bounds, and leaves the path empty if the walk is completed. -/
theorem walker_defined {σ : Type} (sys : Sys σ) (hs : Named sys) (real : Name) (s : σ) (hr : 0#8 ∉ real) :
    ∃ r path s', walk sys (some real) s = some (r, path, s') ∧ path.length = 4096 ∧ (r = 0 → text path = []) := by
  obtain ⟨path, h, hl, ht⟩ := walk_eq sys (named_strings hs) real s hr
  exact ⟨_, path, _, h, hl, ht⟩

/-- In a file system that does not change, exactly the objects at and below the root that can be seen are visited, each once, with its path, its name and its depth, and after the directory
that it is in; the walk ends early exactly if the callback returns something else than zero, which is then returned. -/
theorem walker_visits {fs : Fs} {root : Name} (hs : Sound fs root) (hd : Distinct fs) :
    ∃ vs : List Visit,
      (∀ v, v ∈ vs ↔ Below fs root v.path v.name v.depth ∧ fs.mode v.path = .ok v.mode) ∧
      (vs.map Visit.path).Nodup ∧
      (∀ (k : Nat) (v : Visit), vs[k]? = some v → v.depth ≠ 0 → ∃ j, j < k ∧ ∃ w, vs[j]? = some w ∧ v.path = under w.path v.name ∧ v.depth = w.depth + 1) ∧
      ∀ f, ∃ r path log, walk (fs.sys f) (some root) [] = some (r, path, log) ∧ Outcome f vs r log := by
  obtain ⟨vs, hw⟩ := w_exists hs _ root root 0 (Nat.le_refl _) .root
  refine ⟨vs, ?_, (w_nodup hs hd hw .root).1, ?_, ?_⟩
  · intro v
    constructor
    · exact w_sound hw .root v
    · rintro ⟨hb, hm⟩
      obtain ⟨us, hus, hsub⟩ := w_complete hw hb
      obtain ⟨us', rfl⟩ := w_head hus hm
      exact hsub _ List.mem_cons_self
  · intro k v hv hd
    rcases w_order hw k v hv with ⟨-, -, -, h⟩ | h
    · exact absurd h hd
    · exact h
  · intro f
    have e := walker_w (f := f) hw [] [] (by rw [place, if_pos rfl]) hs.start.1
    have hst : Strings (fs.sys f) := by
      intro p s names fault t h n hn
      simp only [Fs.sys] at h
      cases hl : fs.names p with
      | error x => rw [hl] at h; cases h
      | ok l => rw [hl] at h; cases h; exact (hs.names _ _ hl n hn).1
    obtain ⟨path, h, -, -⟩ := walk_eq (fs.sys f) hst root [] hs.start.2.1
    rw [e] at h
    exact ⟨_, path, _, h, outcome_stopped f vs⟩

/-- A directory with a file and an empty directory. -/
def tree : Fs where
  mode := fun p =>
    if p = [47#8] ∨ p = [47#8, 98#8] then .ok 0x41FF#32 else if p = [47#8, 97#8] then .ok 0x81FF#32 else .error .noent
  names := fun p => if p = [47#8] then .ok [[46#8], [46#8, 46#8], [97#8], [98#8]] else if p = [47#8, 98#8] then .ok [[46#8], [46#8, 46#8]] else .error .notdir

theorem tree_below {p n : Name} {d : Nat} (h : Below tree [47#8] p n d) :
    (p = [47#8] ∧ n = [47#8] ∧ d = 0) ∨ (p = [47#8, 97#8] ∧ n = [97#8] ∧ d = 1) ∨ (p = [47#8, 98#8] ∧ n = [98#8] ∧ d = 1) := by
  induction h with
  | root => exact .inl ⟨rfl, rfl, rfl⟩
  | @entry p n d mode names m hb hm hd hn hmem hp ih =>
    right
    rcases ih with ⟨rfl, -, rfl⟩ | ⟨rfl, -, rfl⟩ | ⟨rfl, -, rfl⟩
    · have hn : Except.ok [[46#8], [46#8, 46#8], [97#8], [98#8]] = Except.ok (ε := Errno) names := hn
      cases hn
      simp only [List.mem_cons, List.not_mem_nil, or_false] at hmem
      rcases hmem with rfl | rfl | rfl | rfl
      · exact absurd rfl hp.2.1
      · exact absurd rfl hp.2.2
      · exact .inl ⟨rfl, rfl, rfl⟩
      · exact .inr ⟨rfl, rfl, rfl⟩
    · have hm : Except.ok 0x81FF#32 = Except.ok (ε := Errno) mode := hm
      cases hm
      exact absurd hd (by decide)
    · have hn : Except.ok [[46#8], [46#8, 46#8]] = Except.ok (ε := Errno) names := hn
      cases hn
      simp only [List.mem_cons, List.not_mem_nil, or_false] at hmem
      rcases hmem with rfl | rfl
      · exact absurd rfl hp.2.1
      · exact absurd rfl hp.2.2

theorem tree_names {p : Name} {l : List Name} (h : tree.names p = .ok l) :
    l = [[46#8], [46#8, 46#8], [97#8], [98#8]] ∨ l = [[46#8], [46#8, 46#8]] := by
  simp only [tree] at h
  split at h
  · cases h; exact .inl rfl
  · split at h
    · cases h; exact .inr rfl
    · cases h

theorem tree_sound : Sound tree [47#8] ∧ Distinct tree := by
  refine ⟨⟨⟨by simp, by decide, fun _ => rfl⟩, fun p n d h => ?_, fun p l h => ?_, fun p n d e h he => ?_, fun p n d m e h hm hd he => ?_⟩, fun p l h => ?_⟩
  · rcases tree_below h with ⟨rfl, -⟩ | ⟨rfl, -⟩ | ⟨rfl, -⟩ <;> simp
  · rcases tree_names h with rfl | rfl <;> decide
  · rcases tree_below h with ⟨rfl, -⟩ | ⟨rfl, -⟩ | ⟨rfl, -⟩ <;> cases he
  · rcases tree_below h with ⟨rfl, -⟩ | ⟨rfl, -⟩ | ⟨rfl, -⟩
    · cases he
    · have hm : Except.ok 0x81FF#32 = Except.ok (ε := Errno) m := hm
      cases hm
      exact absurd hd (by decide)
    · cases he
  · rcases tree_names h with rfl | rfl <;> decide

example : Sound tree [47#8] ∧ Distinct tree ∧ Below tree [47#8] [47#8, 97#8] [97#8] 1 :=
  ⟨tree_sound.1, tree_sound.2, .entry (m := [97#8]) .root (mode := 0x41FF#32) rfl (by decide) (names := [[46#8], [46#8, 46#8], [97#8], [98#8]]) rfl (by decide) (by unfold Proper; decide)⟩

/-- If a walk returns 0, no system call failed with an error that is not ignored and the callback always returned 0; and if none failed and it always did, then the walk returns 0 unless a path
is too long (-5).  In particular the depth is never found to be too large (-3). -/
theorem walker_errors {σ : Type} (sys : Sys σ) (hs : Named sys) (real : Name) (s : σ) (hr : 0#8 ∉ real) (hn : real ≠ []) :
    ∃ r path s' bad, walk sys (some real) s = some (r, path, s') ∧ (∃ path', walk (watched sys) (some real) (s, false) = some (r, path', s', bad)) ∧
      (r = 0 → bad = false) ∧ (bad = false → r = 0 ∨ r = -5) := by
  obtain ⟨path, h, -, -⟩ := walk_eq sys (named_strings hs) real s hr
  obtain ⟨path', h', -, -⟩ := walk_eq (watched sys) (named_strings (watched_named hs)) real (s, false) hr
  obtain ⟨b, e, h1, h2, -⟩ := awalker_watched sys hs real [] 0 s false hn (fun h => absurd rfl h) (.inl ⟨rfl, rfl⟩) (by simp)
  rw [e] at h'
  exact ⟨_, path, _, b, h, ⟨path', h'⟩, h1, h2⟩

example : Named (tree.sys fun _ _ => 0) := by
  intro p s names fault t h n hn
  simp only [Fs.sys] at h
  cases hl : tree.names p with
  | error x => rw [hl] at h; cases h
  | ok l => rw [hl] at h; cases h; exact tree_sound.1.names _ _ hl n hn

/-- If `realpath(3)` fails, nothing is visited. -/
theorem walker_no_root {σ : Type} (sys : Sys σ) (s : σ) : ∃ path, walk sys none s = some (-2, path, s) := ⟨_, rfl⟩

/-- The root "/" with an entry "a": the callback stops the walk there, and then `closedir(3)` fails. -/
def stuck : Sys Unit where
  lstat := fun p s => (.ok (if p = [47#8] then 0x4000#32 else 0x8000#32), s)
  opendir := fun _ s => (.ok ([[97#8]], false), s)
  closedir := fun _ s => (false, s)
  callback := fun _ _ d _ s => (if d = 1 then 7 else 0, s)

/-- The value that the callback has returned to stop the walk is lost if `closedir(3)` fails then. -/
theorem walker_closedir_counterexample : ∃ path, walk stuck (some [47#8]) () = some (-9, path, ()) := by
  have hst : Strings stuck := by
    intro p s names fault t h n hn
    cases h
    rw [List.mem_singleton.1 hn]
    decide
  obtain ⟨path, h, -, -⟩ := walk_eq stuck hst [47#8] () (by decide)
  have e : awalker stuck [47#8] [] 0 () = (-9, ()) := by
    rw [awalker, if_neg (by decide), dif_neg (by decide), dif_neg (by decide)]
    have h1 : place [] [47#8] = [47#8] := rfl
    rw [h1]
    have hl : stuck.lstat [47#8] () = (.ok 0x4000#32, ()) := rfl
    have hc : stuck.callback [47#8] [47#8] 0 0x4000#32 () = (0, ()) := rfl
    have ho : stuck.opendir [47#8] () = (.ok ([[97#8]], false), ()) := rfl
    have hd : ∀ x, stuck.closedir [47#8] x = (false, x) := fun _ => rfl
    simp only [hl, hc, ho, hd]
    rw [if_neg (by decide), if_pos (by decide)]
  rw [e] at h
  exact ⟨path, h⟩

/-- A path of 4095 characters, which fits into the buffer, is refused. -/
theorem walker_longest_counterexample {σ : Type} (sys : Sys σ) (real : Name) (hl : real.length = 4095) (s : σ) : ∃ path, walk sys (some real) s = some (-5, path, s) := by
  refine ⟨List.replicate PATH 0#8, ?_⟩
  unfold walk
  simp only []
  have hP : PATH = 4096 := rfl
  rw [walker, if_neg (by omega), dif_neg (by omega), dif_pos (by omega)]

/-- The characters for the sixteen kinds of objects: those of ls(1), except f for a regular file, and the hexadecimal digit if there is no such kind. -/
def kinds : List Byte := [48#8, 112#8, 99#8, 51#8, 100#8, 53#8, 98#8, 55#8, 102#8, 57#8, 108#8, 66#8, 115#8, 68#8, 69#8, 70#8]

/-- `diminuto_fs_mode2type` depends only on the kind, and is as documented for each. -/
theorem walker_mode2type (mode : BitVec 32) : some (mode2type mode) = kinds[(mode.extractLsb' 12 4).toNat]? := by
  unfold mode2type
  rw [mode_mask]
  generalize mode.extractLsb' 12 4 = k
  revert k
  decide +kernel

/-- The enumerator `DIMINUTO_FS_TYPE_9`, `Diminuto/inc/com/diag/diminuto/diminuto_fs.h:60`, is '0' and so is not what is returned for that kind. -/
theorem walker_type9_counterexample : mode2type 0x9000#32 = 57#8 ∧ mode2type 0x9000#32 ≠ 48#8 := by decide

end Diminuto.Walker
