import Verif.PinLemmas

/-!
# Lemmas: pins of the kernel of the specification
-/

namespace Diminuto.Pin

theorem filter_fresh (k : Kernel) (h : k.Fresh) : k.streams.filter (·.1 ≠ k.next) = k.streams := by
  rw [List.filter_eq_self]
  intro x hx
  have := h x hx
  simp; omega

theorem lookup_path (root : Name) (pin : Nat) (a : Attr) : lookup root pin (path root a pin) = some a := by
  cases a <;> simp [lookup, path, ascii, List.find?]

/-- The attributes whose files are there some time after the pin is exported. -/
def Attr.late : Attr → Bool
  | .export => false
  | .unexport => false
  | _ => true

theorem attempt_late (root : Name) (pin : Nat) (a : Attr) (ha : a.late = true) (ticks : BitVec 64) : ∀ (m : Nat) (k : Kernel), k.exported = true → k.lag ≤ m →
    attempt (kernel root pin) ticks (path root a pin) (m + 1) k = (some k.next, { k with lag := 0, streams := (k.next, a, true, []) :: k.streams, next := k.next + 1 }) := by
  have hhas : ∀ k : Kernel, k.exported = true → k.has (some a) = (k.lag == 0) := by
    intro k hk
    cases a <;> simp_all [Kernel.has, Attr.late]
  intro m
  induction m with
  | zero =>
    intro k hk hm
    have h0 : k.lag = 0 := by omega
    rw [attempt]
    simp only [kernel, lookup_path, hhas k hk, h0, beq_self_eq_true, if_true]
  | succ m ih =>
    intro k hk hm
    by_cases h0 : k.lag = 0
    · rw [attempt]
      simp only [kernel, lookup_path, hhas k hk, h0, beq_self_eq_true, if_true]
    · rw [attempt]
      have hb : (k.lag == 0) = false := by simpa using h0
      have h1 : (kernel root pin).stat (path root a pin) k = (.transient, k) := by
        simp [kernel, lookup_path, hhas k hk, hb]
      rw [h1]
      simp only []
      rw [if_neg (by omega)]
      have h2 : (kernel root pin).delay ticks k = { k with lag := k.lag - 1 } := rfl
      rw [h2, ih { k with lag := k.lag - 1 } hk (by simp only []; omega)]

theorem attempt_now (root : Name) (pin : Nat) (a : Attr) (ticks : BitVec 64) (m : Nat) (k : Kernel) (h : k.has (some a) = true) :
    attempt (kernel root pin) ticks (path root a pin) (m + 1) k = (some k.next, { k with streams := (k.next, a, true, []) :: k.streams, next := k.next + 1 }) := by
  rw [attempt]
  simp only [kernel, lookup_path, h, if_true]

/-- Once a file is open, a string that it accepts is written to it. -/
theorem configure_kernel (root : Name) (pin : Nat) (a : Attr) (string : Name) (ticks d : BitVec 64) (hl : (path root a pin).length < PATH) (k k1 : Kernel) (hk : k1.Fresh) (tries : Nat)
    (hat : attempt (kernel root pin) ticks (path root a pin) tries k = (some k1.next, { k1 with streams := (k1.next, a, true, []) :: k1.streams, next := k1.next + 1 }))
    (k2 : Kernel) (hst : Kernel.store { k1 with streams := (k1.next, a, true, string) :: k1.streams, next := k1.next + 1 } pin a string =
      (.ok, { k2 with streams := (k1.next, a, true, string) :: k1.streams })) :
    configure (kernel root pin) root ticks a pin string false tries d k = (true, { k2 with streams := k1.streams }) := by
  have hfil := filter_fresh k1 hk
  simp only [configure]
  rw [if_neg (by omega), show ((pin : Int).toNat) = pin by omega, filename_short _ _ _ hl, hat]
  simp only []
  have hfp : (kernel root pin).fputs k1.next string { k1 with streams := (k1.next, a, true, []) :: k1.streams, next := k1.next + 1 } =
      (.ok, { k1 with streams := (k1.next, a, true, string) :: k1.streams, next := k1.next + 1 }) := by
    simp only [kernel, List.find?_cons, decide_true, List.nil_append]
    rw [List.filter_cons, if_neg (by simp), hfil]
  have hff : (kernel root pin).fflush k1.next { k1 with streams := (k1.next, a, true, string) :: k1.streams, next := k1.next + 1 } =
      (.ok, { k2 with streams := (k1.next, a, true, string) :: k1.streams }) := by
    simp only [kernel, List.find?_cons, decide_true]
    exact hst
  have hfc : (kernel root pin).fclose k1.next { k2 with streams := (k1.next, a, true, string) :: k1.streams } = (true, { k2 with streams := k1.streams }) := by
    simp only [kernel]
    rw [List.filter_cons, if_neg (by simp), hfil]
  simp only [hfp, tolerated, Bool.true_eq_false, if_false, hff, hfc]

/-- A pin is exported, its direction is set, and its value is opened. -/
theorem setup_kernel (root : Name) (pin : Nat) (ticks : BitVec 64) (tries : Nat) (output : Bool) (k : Kernel) (hk : k.Fresh) (he : k.exported = false) (ht : k.lag < tries)
    (hl : (path root .direction pin).length < PATH) :
    setup (kernel root pin) root ticks tries pin output k = (some (k.next + 2), { k with exported := true, lag := 0, output := output, streams := (k.next + 2, .value, output, []) :: k.streams, next := k.next + 3 }) := by
  have hlv : (path root .value pin).length < PATH := by
    simp only [path, List.length_append, ascii, PATH] at hl ⊢
    simp at hl ⊢
    omega
  have hle : (path root .export pin).length < PATH := by
    simp only [path, List.length_append, ascii, PATH] at hl ⊢
    simp at hl ⊢
    omega
  have h1 := configure_kernel root pin .export (line pin) ticks 0#64 hle k k hk 1 (attempt_now root pin .export ticks 0 k rfl) { k with exported := true, next := k.next + 1 }
    (by simp [Kernel.store, he])
  obtain ⟨m, rfl⟩ : ∃ m, tries = m + 1 := ⟨tries - 1, by omega⟩
  have h2 := configure_kernel root pin .direction (if output then ascii "out\n" else ascii "in\n") ticks ticks hl { k with exported := true, next := k.next + 1 }
    { k with exported := true, lag := 0, next := k.next + 1 } (by intro x hx; have := hk x hx; simp only []; omega) (m + 1)
    (attempt_late root pin .direction rfl ticks m { k with exported := true, next := k.next + 1 } rfl (by simp only []; omega))
    { k with exported := true, lag := 0, output := output, next := k.next + 2 }
    (by cases output <;> simp [Kernel.store, ascii])
  simp only [setup, export_, port, h1, direction, h2, open_]
  rw [if_neg (by omega), show ((pin : Int).toNat) = pin by omega, filename_short _ _ _ hlv]
  simp only [kernel, lookup_path, Kernel.has, Bool.true_and, beq_self_eq_true, if_true]

end Diminuto.Pin
