import Verif.Module

/-!
# Properties of the Module feature
-/

namespace Diminuto.Module

/-- The number of times that a module is open is changed, and that of no other. -/
def Counts (s t : Linker) (file n : Nat) : Prop := t file = n ∧ ∀ f, f ≠ file → t f = s f

/-- C121.  To load a module that is already open, or that can be loaded, succeeds, and it is open once more; otherwise it fails, an error is logged, and nothing is changed. -/
theorem module_load (platform : Platform) (ex : Nat → Bool) (file : Nat) (s : Linker) :
    (s file ≠ 0 ∨ ex file = true → ∃ t, load platform ex file s = (some file, false, t) ∧ Counts s t file (s file + 1)) ∧
      (s file = 0 → ex file = false → load platform ex file s = (none, true, s)) := by
  have hflags : ¬ ((RTLD_LAZY ||| RTLD_GLOBAL ||| RTLD_DEEPBIND) &&& (RTLD_LAZY ||| RTLD_NOW) = 0#32) := by decide
  have hno : ¬ ((RTLD_LAZY ||| RTLD_GLOBAL ||| RTLD_DEEPBIND) &&& RTLD_NOLOAD ≠ 0#32) := by decide
  have hno2 : ¬ ((RTLD_LAZY ||| RTLD_GLOBAL ||| RTLD_DEEPBIND) &&& RTLD_NOLOAD = RTLD_NOLOAD) := by decide
  refine ⟨?_, ?_⟩
  · intro h
    refine ⟨fun f => if f = file then s f + 1 else s f, ?_, by simp, fun f hf => by simp [hf]⟩
    have h3 : ¬ (s file = 0 ∧ ex file = false) := by
      rintro ⟨h1, h2⟩
      rcases h with h | h
      · exact h h1
      · rw [h2] at h; nomatch h
    unfold load loadGeneric dlopen
    rw [if_neg (fun h => hflags h.2), if_neg (fun h => hno h.1), if_neg h3]
    simp
  · intro h0 h1
    unfold load loadGeneric dlopen
    rw [if_neg (fun h => hflags h.2), if_neg (fun h => hno h.1), if_pos ⟨h0, h1⟩]
    simp only [ne_eq, not_true_eq_false, if_false, if_neg hno2]

example : (load .glibc (fun _ => true) 3 (fun _ => 0)).1 = some 3 ∧ (load .glibc (fun _ => false) 3 (fun _ => 0)).2.1 = true := by decide

/-- C121.  `diminuto_module_handle` returns the handle exactly if the module is already loaded, loads nothing, and logs nothing — except with glibc. -/
theorem module_handle_partial (platform : Platform) (hp : platform ≠ .glibc) (ex : Nat → Bool) (file : Nat) (s : Linker) :
    (s file = 0 → handle platform ex file s = (none, false, s)) ∧ (s file ≠ 0 → ∃ t, handle platform ex file s = (some file, false, t) ∧ Counts s t file (s file + 1)) := by
  have hno : RTLD_NOLOAD &&& RTLD_NOLOAD ≠ 0#32 := by decide
  have hno2 : RTLD_NOLOAD &&& RTLD_NOLOAD = RTLD_NOLOAD := by decide
  refine ⟨?_, ?_⟩
  · intro h0
    unfold handle loadGeneric dlopen
    rw [if_neg (fun h => hp h.1), if_pos ⟨hno, h0⟩]
    simp only [ne_eq, not_true_eq_false, if_false, if_pos hno2]
  · intro h0
    refine ⟨fun f => if f = file then s f + 1 else s f, ?_, by simp, fun f hf => by simp [hf]⟩
    unfold handle loadGeneric dlopen
    rw [if_neg (fun h => hp h.1), if_neg (fun h => h0 h.2), if_neg (fun h => h0 h.1)]
    simp

example : (handle .posix (fun _ => true) 3 (fun _ => 1)).1 = some 3 ∧ (handle .posix (fun _ => true) 3 (fun _ => 0)).1 = none := by decide

/-- C121.  With glibc `diminuto_module_handle` returns null for every module, also one that is loaded, and logs nothing, because `RTLD_NOLOAD` is given without `RTLD_LAZY` or `RTLD_NOW`. -/
theorem module_handle_counterexample (ex : Nat → Bool) (file : Nat) (s : Linker) : handle .glibc ex file s = (none, false, s) := by
  have h : RTLD_NOLOAD &&& (RTLD_LAZY ||| RTLD_NOW) = 0#32 := by decide
  have hno2 : RTLD_NOLOAD &&& RTLD_NOLOAD = RTLD_NOLOAD := by decide
  unfold handle loadGeneric dlopen
  rw [if_pos ⟨rfl, h⟩]
  simp only [ne_eq, not_true_eq_false, if_false, if_pos hno2]

/-- C121.  To unload a module that is open, without force, returns null, and it is open once less, on every platform. -/
theorem module_unload (compiled platform : Platform) (h fuel : Nat) (s : Linker) (h0 : s h ≠ 0) : ∃ t, unload compiled platform h false (fuel + 1) s = .done none t ∧ Counts s t h (s h - 1) := by
  refine ⟨fun f => if f = h then s f - 1 else s f, ?_, by simp, fun f hf => by simp [hf]⟩
  have hf : (if compiled = .bionic then false else false) = false := by split <;> rfl
  simp only [unload, hf, close, dlclose, if_neg h0, Bool.false_eq_true, false_and, if_false, if_true]

example : ∃ t, unload .glibc .posix 3 false 1 (fun _ => 2) = .done none t ∧ t 3 = 1 := by
  obtain ⟨t, h, hc⟩ := module_unload .glibc .posix 3 0 (fun _ => 2) (by decide)
  exact ⟨t, h, hc.1⟩

/-- C121.  To unload one that is not open, without force, returns the handle and changes nothing with glibc; it returns null on a platform where the unload always succeeds; and POSIX does not say what happens. -/
theorem module_unload_closed (compiled : Platform) (h fuel : Nat) (s : Linker) (h0 : s h = 0) :
    unload compiled .glibc h false (fuel + 1) s = .done (some h) s ∧ unload compiled .bionic h false (fuel + 1) s = .done none s ∧ unload compiled .posix h false (fuel + 1) s = .undefined := by
  have hf : (if compiled = .bionic then false else false) = false := by split <;> rfl
  refine ⟨?_, ?_, ?_⟩
  · simp only [unload, hf, close, dlclose, if_pos h0, Bool.false_eq_true, false_and, if_false]
    rfl
  · simp only [unload, hf, close, dlclose, if_pos h0, Bool.false_eq_true, false_and, if_false, if_true]
  · simp only [unload, close, dlclose, if_pos h0]

theorem close_force (platform : Platform) (h : Nat) (n : Nat) : ∀ (s : Linker) (fuel : Nat), s h = n →
    close platform h true (n + fuel) s = close platform h true fuel (fun f => if f = h then 0 else s f) := by
  induction n with
  | zero =>
    intro s fuel hn
    have : (fun f => if f = h then 0 else s f) = s := by
      funext f
      split
      · rename_i hf; rw [hf, hn]
      · rfl
    rw [this, Nat.zero_add]
  | succ n ih =>
    intro s fuel hn
    have h0 : s h ≠ 0 := by omega
    rw [show n + 1 + fuel = (n + fuel) + 1 by omega]
    simp only [close, dlclose, if_neg h0, and_self, if_true]
    rw [ih _ _ (by simp [hn])]
    congr 1
    funext f
    split
    · rfl
    · simp

/-- C121.  A forced unload with glibc ends, however many times the module is open, returns null, and the module is not open any more. -/
theorem module_force_glibc (h : Nat) (s : Linker) : ∃ t, (∀ fuel, s h < fuel → unload .glibc .glibc h true fuel s = .done none t) ∧ Counts s t h 0 := by
  refine ⟨fun f => if f = h then 0 else s f, ?_, by simp, fun f hf => by simp [hf]⟩
  intro fuel hfuel
  obtain ⟨k, rfl⟩ : ∃ k, fuel = s h + (k + 1) := ⟨fuel - s h - 1, by omega⟩
  have hf : (if Platform.glibc = Platform.bionic then false else true) = true := rfl
  unfold unload
  simp only [hf]
  rw [close_force .glibc h _ s (k + 1) rfl]
  simp [close, dlclose]

example : ∃ t, unload .glibc .glibc 3 true 8 (fun _ => 7) = .done none t ∧ t 3 = 0 := by
  obtain ⟨t, h, hc⟩ := module_force_glibc 3 (fun _ => 7)
  exact ⟨t, h 8 (by decide), hc.1⟩

/-- C121.  By POSIX alone a forced unload is undefined, whatever is open: it always closes a handle that is not open any more. -/
theorem module_force_counterexample (compiled : Platform) (hc : compiled ≠ .bionic) (h : Nat) (s : Linker) (fuel : Nat) (hfuel : s h < fuel) : unload compiled .posix h true fuel s = .undefined := by
  obtain ⟨k, rfl⟩ : ∃ k, fuel = s h + (k + 1) := ⟨fuel - s h - 1, by omega⟩
  have hf : (if compiled = Platform.bionic then false else true) = true := if_neg hc
  unfold unload
  simp only [hf]
  rw [close_force .posix h _ s (k + 1) rfl]
  simp [close, dlclose]

/-- C121.  On a platform where the unload always succeeds a forced unload does not end, if it has not been compiled for this. -/
theorem module_force_busy (compiled : Platform) (hc : compiled ≠ .bionic) (h : Nat) (fuel : Nat) : ∀ s : Linker, unload compiled .bionic h true fuel s = .busy := by
  have hf : (if compiled = Platform.bionic then false else true) = true := if_neg hc
  intro s
  unfold unload
  simp only [hf]
  have : ∀ s, ∃ t, close .bionic h true fuel s = some (none, t) := by
    induction fuel with
    | zero => exact fun s => ⟨s, rfl⟩
    | succ n ih =>
      intro s
      by_cases h0 : s h = 0
      · simp only [close, dlclose, if_pos h0, and_self, if_true]
        exact ih s
      · simp only [close, dlclose, if_neg h0, and_self, if_true]
        exact ih _
  obtain ⟨t, ht⟩ := this s
  rw [ht]

/-- C121.  If it has been compiled for this then the force is ignored: it ends, and one that is open more than once stays open although null is returned. -/
theorem module_force_ignored (h fuel : Nat) (s : Linker) : ∃ t, unload .bionic .bionic h true (fuel + 1) s = .done none t ∧ Counts s t h (s h - 1) := by
  by_cases h0 : s h = 0
  · refine ⟨s, ?_, by omega, fun f _ => rfl⟩
    simp [unload, close, dlclose, h0]
  · refine ⟨fun f => if f = h then s f - 1 else s f, ?_, by simp, fun f hf => by simp [hf]⟩
    simp [unload, close, dlclose, h0]

example : ∃ t, unload .bionic .bionic 3 true 1 (fun _ => 2) = .done none t ∧ t 3 = 1 := by
  obtain ⟨t, h, hc⟩ := module_force_ignored 3 0 (fun _ => 2)
  exact ⟨t, h, hc.1⟩

end Diminuto.Module
