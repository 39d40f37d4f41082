import Verif.GpiotoolSpec
import Verif.PinKernel
import Verif.PhextoolLemmas

/-!
# Lemmas about the tool for a pin
-/

namespace Diminuto.Gpiotool

open Pin

/-- A pin that is exported, and of which the stream is open, is given up. -/
theorem unused_kernel (root : Name) (pin : Nat) (ticks : BitVec 64) (k : Kernel) (l : List (Nat × Attr × Bool × Name)) (h : Nat) (o : Bool) (hk : k.Fresh) (he : k.exported = true) (hs : k.streams = (h, .value, o, []) :: l)
    (hl : (path root .unexport pin).length < PATH) (hd : ∀ x ∈ l, x.1 ≠ h) :
    (unused (kernel root pin) root ticks (some h) pin k).2 = { k with exported := false, streams := l, next := k.next + 1 } := by
  have h1 := configure_kernel root pin .unexport (line pin) ticks 0#64 hl k k hk 1 (attempt_now root pin .unexport ticks 0 k rfl) { k with exported := false, next := k.next + 1 }
    (by simp [Kernel.store, he])
  have hf : ((h, Attr.value, o, ([] : Name)) :: l).filter (fun x => decide (x.1 ≠ h)) = l := by
    rw [List.filter_cons, if_neg (by simp), List.filter_eq_self]
    intro x hx
    simpa using hd x hx
  have hc : (kernel root pin).fclose h { k with exported := false, next := k.next + 1 } = (true, { k with exported := false, streams := l, next := k.next + 1 }) := by
    show (true, { k with exported := false, streams := k.streams.filter (fun x => decide (x.1 ≠ h)), next := k.next + 1 }) = _
    rw [hs, hf]
  simp only [unused, unexport, port, h1, close, hc, if_true]

theorem narrow_small (n : Nat) (h : n < 2 ^ 31) : narrow n = n := by
  unfold narrow
  rw [BitVec.toInt_eq_toNat_cond, BitVec.toNat_ofNat, Nat.mod_eq_of_lt (by omega), if_pos (by omega)]

theorem paths (root : Name) (pin : Nat) (h : (path root .direction pin).length < PATH) : (path root .unexport pin).length < PATH := by
  simp only [path, List.length_append, ascii, PATH] at h ⊢
  simp at h ⊢
  omega

theorem gets_kernel (root : Name) (pin : Nat) (ticks : BitVec 64) (tries : Nat) (k : Kernel) (hk : k.Fresh) (he : k.exported = false) (ht : k.lag < tries) (hl : (path root .direction pin).length < PATH) :
    gets (kernel root pin) root ticks tries pin k = ⟨0, [if k.value then 49#8 else 48#8, 10#8], { k with lag := 0, output := false, next := k.next + 4 }⟩ := by
  have hs := setup_kernel root pin ticks tries false k hk he ht hl
  have hg : get (kernel root pin) (k.next + 2) { k with exported := true, lag := 0, output := false, streams := (k.next + 2, .value, false, []) :: k.streams, next := k.next + 3 } =
      (if k.value then 1 else 0, { k with exported := true, lag := 0, output := false, streams := (k.next + 2, .value, false, []) :: k.streams, next := k.next + 3 }) := by
    unfold Pin.get
    cases hv : k.value <;> simp [kernel, ascii, hv]
  have hu := unused_kernel root pin ticks { k with exported := true, lag := 0, output := false, streams := (k.next + 2, .value, false, []) :: k.streams, next := k.next + 3 } k.streams (k.next + 2) false (by
      intro x hx
      rcases List.mem_cons.1 hx with rfl | hx
      · simp
      · have := hk x hx; simp only []; omega) rfl rfl (paths root pin hl) (by intro x hx; have := hk x hx; omega)
  unfold gets
  rw [hs]
  simp only [hg, hu]
  cases hv : k.value <;> simp [he]

theorem puts_kernel (root : Name) (pin : Nat) (ticks : BitVec 64) (tries : Nat) (v : Nat) (k : Kernel) (hk : k.Fresh) (he : k.exported = false) (ht : k.lag < tries) (hl : (path root .direction pin).length < PATH) :
    puts (kernel root pin) root ticks tries pin v k = ⟨0, [], { k with lag := 0, output := true, value := decide (v ≠ 0), next := k.next + 4 }⟩ := by
  have hs := setup_kernel root pin ticks tries true k hk he ht hl
  have hg : put (kernel root pin) (k.next + 2) (decide (v ≠ 0)) { k with exported := true, lag := 0, output := true, streams := (k.next + 2, .value, true, []) :: k.streams, next := k.next + 3 } =
      (true, { k with exported := true, lag := 0, output := true, value := decide (v ≠ 0), streams := (k.next + 2, .value, true, []) :: k.streams, next := k.next + 3 }) := by
    unfold Pin.put
    by_cases hv : v = 0 <;> simp [kernel, ascii, hv, Kernel.store]
  have hu := unused_kernel root pin ticks { k with exported := true, lag := 0, output := true, value := decide (v ≠ 0), streams := (k.next + 2, .value, true, []) :: k.streams, next := k.next + 3 } k.streams (k.next + 2) true (by
      intro x hx
      rcases List.mem_cons.1 hx with rfl | hx
      · simp
      · have := hk x hx; simp only []; omega) rfl rfl (paths root pin hl) (by intro x hx; have := hk x hx; omega)
  unfold puts
  rw [hs]
  simp only [hg, hu]
  simp [he]

/-- The value of a pin is the digit that has been read. -/
theorem get_reads {σ : Type} (w : World σ) (fp : Nat) (s : σ) (h : 0 ≤ (Pin.get w fp s).1) :
    ∃ c r, (w.lseek fp s).1 = true ∧ (w.read fp 2 (w.lseek fp s).2).1 = some (c :: r) ∧ (if (Pin.get w fp s).1 ≠ 0 then 49#8 else 48#8) = c := by
  rcases hl : w.lseek fp s with ⟨l, s2⟩
  cases l with
  | false => exact absurd h (by simp [Pin.get, hl])
  | true =>
    rcases hr : w.read fp 2 s2 with ⟨t, s3⟩
    match t with
    | none => exact absurd h (by simp [Pin.get, hl, hr])
    | some [] => exact absurd h (by simp [Pin.get, hl, hr])
    | some (c :: r) =>
      have hg : (Pin.get w fp s).1 = if c = 48#8 then 0 else if c = 49#8 then 1 else -1 := by simp [Pin.get, hl, hr]
      refine ⟨c, r, rfl, rfl, ?_⟩
      rw [hg] at h ⊢
      by_cases c0 : c = 48#8
      · rw [if_pos c0, if_neg (by decide), c0]
      · by_cases c1 : c = 49#8
        · rw [if_neg c0, if_pos c1, if_pos (by decide), c1]
        · rw [if_neg c0, if_neg c1] at h
          exact absurd h (by decide)

/-- What is put has been written. -/
theorem put_writes {σ : Type} (w : World σ) (fp : Nat) (b : Bool) (s : σ) (h : (Pin.put w fp b s).1 = true) :
    (w.lseek fp s).1 = true ∧ 0 ≤ (w.write fp (if b then ascii "1\n" else ascii "0\n") (w.lseek fp s).2).1 := by
  rcases hl : w.lseek fp s with ⟨l, s2⟩
  cases l with
  | false => exact absurd h (by simp [Pin.put, hl])
  | true =>
    refine ⟨rfl, ?_⟩
    simp only [Pin.put, hl] at h
    simpa using h

end Diminuto.Gpiotool
