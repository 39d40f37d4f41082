import Verif.MkdirLemmas2

/-!
# Properties of the making of directories and of the search along a list of directories
-/

namespace Diminuto.Mkdir

/-- Every string has components, and they are unique. -/
theorem mkdir_components (x : Byte) (s : Name) : ∃ cs, Split x s cs ∧ ∀ ds, Split x s ds → ds = cs := by
  obtain ⟨cs, h⟩ := split_exists x s
  exact ⟨cs, h, fun ds h' => split_unique h' h⟩

example : Split 47#8 [47#8, 97#8, 47#8, 47#8, 98#8] [[97#8], [98#8]] :=
  .delimiter (.component (c := [97#8]) (by simp) (by decide) (.delimiter (.last (by simp) (by decide))))

/-- `diminuto_fs_mkdir_p` calls `mkdir(2)` for each of the paths that lead to the given one, in their order, until it fails other than with `EEXIST`; it returns 0 exactly if it does not; and it
does not write out of bounds. -/
theorem mkdir_calls {σ : Type} (mkdir : Name → σ → Result × σ) (path : Name) (cs : List Name) (s : σ) (hl : path.length < 4096) (h : Split 47#8 path cs) :
    ∃ r u, mkdirP mkdir path true s = some (r, u) ∧ Calls mkdir (prefixes (decide (path.head? = some 47#8)) cs) s r u := by
  unfold mkdirP
  have hP : PATH = 4096 := rfl
  rw [if_neg (by omega)]
  by_cases h0 : path.length = 0
  · rw [if_pos h0]
    have := List.eq_nil_of_length_eq_zero h0
    subst this
    rw [split_unique h .nil]
    exact ⟨0, s, rfl, .nil⟩
  · rw [if_neg h0, if_pos rfl]
    exact loop_start mkdir _ path cs s h (Nat.le_refl _)

example : prefixes true [[97#8], [98#8]] = [[47#8, 97#8], [47#8, 97#8, 47#8, 98#8]] := by decide

/-- The same for the directory of the path, if the last component is not to be a directory. -/
theorem mkdir_calls_directory {σ : Type} (mkdir : Name → σ → Result × σ) (path d : Name) (cs : List Name) (s : σ) (hl : path.length < 4096) (hd : Directory path d) (h : Split 47#8 d cs) :
    ∃ r u, mkdirP mkdir path false s = some (r, u) ∧ Calls mkdir (prefixes (decide (path.head? = some 47#8)) cs) s r u := by
  cases hd with
  | @intro _ f hf hd =>
    have hdl : d.length ≠ 0 := fun h => hd (List.eq_nil_of_length_eq_zero h)
    have hP : PATH = 4096 := rfl
    unfold mkdirP
    rw [if_neg (by omega), if_neg (by simp), if_neg (by simp), strrchr_some hf]
    simp only []
    rw [if_neg hdl, List.take_left]
    have := loop_start mkdir ((d ++ 47#8 :: f).length + 1) d cs s h (by simp)
    obtain ⟨b, d', rfl⟩ := List.exists_cons_of_ne_nil hd
    exact this

example : Directory [47#8, 97#8, 47#8, 98#8] [47#8, 97#8] := Directory.intro (d := [47#8, 97#8]) (f := [98#8]) (by decide) (by simp)

/-- Nothing is done if there is no such directory, or if the path is too long, which is an error. -/
theorem mkdir_nothing {σ : Type} (mkdir : Name → σ → Result × σ) (path : Name) (s : σ) :
    (path.length < 4096 → (∀ d, ¬ Directory path d) → mkdirP mkdir path false s = some (0, s)) ∧ (4096 ≤ path.length → ∀ all, mkdirP mkdir path all s = some (-1, s)) := by
  have hP : PATH = 4096 := rfl
  refine ⟨fun hl hd => ?_, fun hl all => ?_⟩
  · unfold mkdirP
    rw [if_neg (by omega)]
    by_cases h0 : path.length = 0
    · rw [if_pos h0]
    · rw [if_neg h0, if_neg (by simp)]
      by_cases hx : 47#8 ∈ path
      · obtain ⟨d, f, rfl, hf⟩ := strrchr_split hx
        rw [strrchr_some hf]
        simp only []
        by_cases hd0 : d = []
        · subst hd0
          rfl
        · exact absurd (Directory.intro hf hd0) (hd d)
      · rw [strrchr_none.2 hx]
  · unfold mkdirP
    rw [if_pos (by omega)]

/-- In a file system: existing objects are not changed; only directories on the way are made; if 0 is returned all objects on the way are directories and the last one exists, and
is a directory unless it was a file before.  The full claim would be that it is a directory. -/
theorem mkdir_makes_partial {cwd : List Name} {mkdir : Name → Fs → Result × Fs} (hm : Honest cwd mkdir) (path : Name) (cs : List Name) (hl : path.length < 4096) (h : Split 47#8 path cs)
    (base : List Name) (hb : base = if path.head? = some 47#8 then [] else cwd) (fs : Fs) :
    ∃ r fs', mkdirP mkdir path true fs = some (r, fs') ∧
      (∀ p, fs p ≠ none → fs' p = fs p) ∧
      (∀ p, fs' p ≠ fs p → fs' p = some .directory ∧ ∃ k, 1 ≤ k ∧ k ≤ cs.length ∧ p = base ++ cs.take k) ∧
      (r = 0 → cs ≠ [] → (∀ k, k < cs.length → fs' (base ++ cs.take k) = some .directory) ∧ fs' (base ++ cs) ≠ none ∧
        (fs (base ++ cs) ≠ some .file → fs' (base ++ cs) = some .directory)) := by
  obtain ⟨r, fs', h1, h2⟩ := mkdir_calls mkdir path cs fs hl h
  have hh : home cwd (decide (path.head? = some 47#8)) = base := by
    rw [hb]
    unfold home
    by_cases hp : path.head? = some 47#8 <;> simp [hp]
  have := calls_fs hm (decide (path.head? = some 47#8)) cs [] fs r fs' (by simpa using split_takes h) (by simpa [prefixes] using h2)
  rw [hh] at this
  obtain ⟨k1, k2, k3⟩ := this
  refine ⟨r, fs', h1, k1, by simpa using k2, fun hr hn => ?_⟩
  obtain ⟨k4, k5⟩ := k3 hr hn
  simp only [List.nil_append] at k4 k5
  refine ⟨k4, k5, fun hf => ?_⟩
  cases hv : fs (base ++ cs) with
  | some v =>
    rw [k1 _ (by rw [hv]; simp), hv]
    cases v with
    | directory => rfl
    | file => exact absurd hv hf
  | none => exact (k2 _ (by rw [hv]; exact k5)).1

/-- If `mkdir(2)` fails only if the parent is not a directory, and the directory to start from is one and there is no file on the way, 0 is returned. -/
theorem mkdir_succeeds {cwd : List Name} {mkdir : Name → Fs → Result × Fs} (hm : Honest cwd mkdir)
    (ha : ∀ s cs fs, Split 47#8 s cs → cs ≠ [] → (mkdir s fs).1 = .failed → fs ((if s.head? = some 47#8 then [] else cwd) ++ cs).dropLast ≠ some .directory)
    (path : Name) (cs : List Name) (hl : path.length < 4096) (h : Split 47#8 path cs)
    (base : List Name) (hb : base = if path.head? = some 47#8 then [] else cwd) (fs : Fs) (hd : fs base = some .directory) (hf : ∀ k, k < cs.length → fs (base ++ cs.take k) ≠ some .file) :
    ∃ fs', mkdirP mkdir path true fs = some (0, fs') := by
  obtain ⟨r, fs', h1, h2⟩ := mkdir_calls mkdir path cs fs hl h
  have hh : home cwd (decide (path.head? = some 47#8)) = base := by
    rw [hb]
    unfold home
    by_cases hp : path.head? = some 47#8 <;> simp [hp]
  have := calls_able hm (decide (path.head? = some 47#8)) (by
    intro cs fs hc hn hx
    obtain ⟨j1, j2⟩ := join_split (decide (path.head? = some 47#8)) cs hc hn
    have := ha _ _ fs j1 hn hx
    unfold home
    by_cases hp : decide (path.head? = some 47#8) = true
    · rw [if_pos (j2.2 hp)] at this
      rw [if_pos hp]
      exact this
    · rw [if_neg (fun e => hp (j2.1 e))] at this
      rw [if_neg hp]
      exact this) cs [] fs r fs' (by simpa using split_takes h) (by simpa [prefixes] using h2) (by rw [hh]; simpa using hd) (by rw [hh]; simpa using hf)
  subst this
  exact ⟨fs', h1⟩

/-- The components of a path, by `strtok_r(3)`. -/
def components (s : Name) : Nat → List Name
  | 0 => []
  | n + 1 =>
    match strtok 47#8 s with
    | none => []
    | some (_, c, rest) => c :: components rest n

/-- A system call as it should be, for the examples. -/
def makeDirectory (cwd : List Name) (s : Name) (fs : Fs) : Result × Fs :=
  let cs := (if s.head? = some 47#8 then [] else cwd) ++ components s s.length
  if fs cs.dropLast = some .directory then
    if fs cs = none then (.made, fun p => if p = cs then some .directory else fs p) else (.exists, fs)
  else (.failed, fs)

theorem components_split {s : Name} {cs : List Name} (h : Split 47#8 s cs) : ∀ n, s.length ≤ n → components s n = cs := by
  intro n
  induction n generalizing s cs with
  | zero =>
    intro hn
    have := List.eq_nil_of_length_eq_zero (Nat.le_zero.1 hn)
    subst this
    exact split_unique .nil h
  | succ n ih =>
    intro hn
    unfold components
    cases cs with
    | nil => rw [(strtok_split h).1 rfl]
    | cons c cs =>
      obtain ⟨k, rest, h1, h2, -⟩ := (strtok_split h).2 c cs rfl
      rw [h1]
      have := strtok_length h1
      simp only []
      rw [ih h2 (by omega)]

theorem makeDirectory_honest (cwd : List Name) : Honest cwd (makeDirectory cwd) ∧
    ∀ s cs fs, Split 47#8 s cs → cs ≠ [] → (makeDirectory cwd s fs).1 = .failed → fs ((if s.head? = some 47#8 then [] else cwd) ++ cs).dropLast ≠ some .directory := by
  constructor
  · intro s cs fs h hn
    have e : (if s.head? = some 47#8 then [] else cwd) ++ cs = if s.head? = some 47#8 then cs else cwd ++ cs := by split <;> rfl
    unfold makeDirectory
    rw [components_split h _ (Nat.le_refl _), e]
    generalize (if s.head? = some 47#8 then cs else cwd ++ cs) = q
    simp only []
    split
    · rename_i h1
      split
      · rename_i h2
        exact .made h1 h2
      · rename_i h2
        exact .exists h1 h2
    · exact .failed
  · intro s cs fs h hn hx
    unfold makeDirectory at hx
    rw [components_split h _ (Nat.le_refl _)] at hx
    generalize (if s.head? = some 47#8 then [] else cwd) ++ cs = q at hx
    simp only [] at hx
    split at hx
    · split at hx <;> cases hx
    · rename_i h1
      exact h1

example : Honest [] (makeDirectory []) := (makeDirectory_honest []).1

/-- If the last object is a file, 0 is returned although there is no directory. -/
theorem mkdir_file_counterexample : ∃ (mkdir : Name → Fs → Result × Fs) (fs fs' : Fs), Honest [] mkdir ∧ mkdirP mkdir [47#8, 97#8] true fs = some (0, fs') ∧
    Split 47#8 [47#8, 97#8] [[97#8]] ∧ fs' [[97#8]] = some .file := by
  have hs : Split 47#8 [47#8, 97#8] [[97#8]] := .delimiter (.last (by simp) (by decide))
  let fs : Fs := fun p => if p = [] then some .directory else if p = [[97#8]] then some .file else none
  obtain ⟨h1, h2⟩ := makeDirectory_honest []
  obtain ⟨fs', h3⟩ := mkdir_succeeds h1 h2 [47#8, 97#8] [[97#8]] (by simp) hs [] rfl fs rfl (by
    intro k hk
    have : k = 0 := by simpa using hk
    subst this
    simp [fs])
  obtain ⟨r, fs'', h4, h5, -⟩ := mkdir_makes_partial h1 [47#8, 97#8] [[97#8]] (by simp) hs [] rfl fs
  rw [h3] at h4
  cases h4
  refine ⟨_, fs, fs', h1, h3, hs, ?_⟩
  rw [h5 [[97#8]] (by simp [fs])]
  simp [fs]

/-- `diminuto_path_scan` returns the first of the candidates that exists, if none of them is too long.  The full claim is without that. -/
theorem path_scan_partial {σ : Type} (stat : Name → σ → Bool × σ) (list file : Name) (cs : List Name) (s : σ) (h : Split 58#8 list cs) (hl : ∀ c ∈ cs, c.length + 1 + file.length < 4096) :
    Search stat (cs.map fun c => c ++ 47#8 :: file) s (scan stat (some list) (some file) s).1 (scan stat (some list) (some file) s).2 := by
  have := scan_search stat file cs list s h
  have e : ((cs.map fun c => c ++ 47#8 :: file).takeWhile fun p => decide (p.length < 4096)) = cs.map fun c => c ++ 47#8 :: file := by
    have := List.takeWhile_append_of_pos (p := fun p : Name => decide (p.length < 4096)) (l₁ := cs.map fun c => c ++ 47#8 :: file) (l₂ := []) (by
      intro p hp
      obtain ⟨c, hc, rfl⟩ := List.mem_map.1 hp
      have := hl c hc
      simp
      omega)
    simpa using this
  rw [e] at this
  exact this

example : Split 58#8 [97#8, 58#8, 58#8, 98#8] [[97#8], [98#8]] := .component (c := [97#8]) (by simp) (by decide) (.delimiter (.last (by simp) (by decide)))

/-- If a candidate is too long, those after it are not tried: here the second exists, but is not found. -/
theorem path_scan_counterexample : ∃ (list file : Name) (a b : Name), Split 58#8 list [a, b] ∧ b.length + 1 + file.length < 4096 ∧
    scan (fun p (_ : Unit) => (decide (p = b ++ 47#8 :: file), ())) (some list) (some file) () = (none, ()) := by
  obtain ⟨n, hn⟩ : ∃ n, n = 4096 := ⟨_, rfl⟩
  have ha : List.replicate n 97#8 ≠ [] := fun h => by have := congrArg List.length h; simp at this; omega
  have hx : 58#8 ∉ List.replicate n 97#8 := fun h => by have := List.eq_of_mem_replicate h; cases this
  have hs : Split 58#8 (List.replicate n 97#8 ++ 58#8 :: [98#8]) [List.replicate n 97#8, [98#8]] := .component ha hx (.last (by simp) (by decide))
  refine ⟨_, [99#8], _, _, hs, by simp, ?_⟩
  have := scan_search (fun p (_ : Unit) => (decide (p = [98#8] ++ 47#8 :: [99#8]), ())) [99#8] _ _ () hs
  rw [List.map_cons, List.takeWhile_cons, if_neg (by simp; omega)] at this
  show scanLoop _ _ _ () = _
  generalize scanLoop (fun p (_ : Unit) => (decide (p = [98#8] ++ 47#8 :: [99#8]), ())) (List.replicate n 97#8 ++ 58#8 :: [98#8]) [99#8] () = r at this
  obtain ⟨x, u⟩ := r
  cases this
  rfl

/-- `diminuto_path_find` searches the value of the variable; without one, or without a name, nothing is found. -/
theorem path_find {σ : Type} (getenv : Name → Option Name) (stat : Name → σ → Bool × σ) (keyword : Name) (file : Option Name) (s : σ) :
    (∀ v, getenv keyword = some v → find getenv stat (some keyword) file s = scan stat (some v) file s) ∧
    (getenv keyword = none → find getenv stat (some keyword) file s = (none, s)) ∧ find getenv stat none file s = (none, s) ∧
    (∀ list, scan stat (some list) none s = (none, s)) := by
  refine ⟨fun v h => by unfold find; simp only [h], fun h => by unfold find; simp only [h]; rfl, rfl, fun list => rfl⟩

end Diminuto.Mkdir
