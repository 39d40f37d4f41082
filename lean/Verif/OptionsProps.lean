import Verif.OptionsSpec

/-!
# Properties of the options of sockets
-/

namespace Diminuto.Options

/-- Exactly the flags of the mask are set or reset, or nothing is changed and the result is negative. -/
theorem options_status (setfl : Int → BitVec 64 → S → Int × S) (h : HonestFlags setfl) (fd : Int) (enable : Bool) (mask : BitVec 64) (s : S) :
    ((setStatus (fun fd s => s.flags fd) setfl fd enable mask s).1 < 0 ∧ (setStatus (fun fd s => s.flags fd) setfl fd enable mask s).2 = s) ∨
    ((setStatus (fun fd s => s.flags fd) setfl fd enable mask s).1 = fd ∧
      (∀ i < 32, ((setStatus (fun fd s => s.flags fd) setfl fd enable mask s).2.flags fd).getLsbD i = if mask.getLsbD i then enable else (s.flags fd).getLsbD i) ∧
      ∃ v, (setStatus (fun fd s => s.flags fd) setfl fd enable mask s).2 = { s with flags := fun x => if x = fd then v else s.flags x }) := by
  unfold setStatus
  simp only []
  by_cases hf : (s.flags fd).signExtend 64 = -1
  · rw [if_pos hf]; exact Or.inl ⟨by simp, rfl⟩
  · rw [if_neg hf]
    generalize hv : (if enable = true then (s.flags fd).signExtend 64 ||| mask else (s.flags fd).signExtend 64 &&& ~~~mask) = v
    rcases h fd v s with ⟨h1, h2⟩ | ⟨h1, h2⟩
    · rcases hr : setfl fd v s with ⟨rc, s'⟩
      rw [hr] at h1 h2
      simp only [] at h1 h2 ⊢
      rw [if_pos h1]
      exact Or.inl ⟨by simp, h2⟩
    · rcases hr : setfl fd v s with ⟨rc, s'⟩
      rw [hr] at h1 h2
      simp only [] at h1 h2 ⊢
      rw [if_neg (by omega)]
      refine Or.inr ⟨rfl, fun i hi => ?_, _, h2⟩
      simp only [h2, if_true, BitVec.getLsbD_setWidth, hi, decide_true, Bool.true_and]
      rw [← hv]
      have hsx : ((s.flags fd).signExtend 64).getLsbD i = (s.flags fd).getLsbD i := by
        rw [BitVec.getLsbD_signExtend]
        have : i < 64 := by omega
        simp [hi, this]
      have hi64 : i < 64 := by omega
      cases enable with
      | true =>
        rw [if_pos rfl, BitVec.getLsbD_or, hsx]
        cases mask.getLsbD i <;> simp
      | false =>
        rw [if_neg (by simp), BitVec.getLsbD_and, BitVec.getLsbD_not, hsx]
        cases mask.getLsbD i <;> simp [hi64]

/-- If `fcntl(2)` does not fail, neither does the function (flags are not negative). -/
theorem options_status_succeeds (setfl : Int → BitVec 64 → S → Int × S) (fd : Int) (enable : Bool) (mask : BitVec 64) (s : S)
    (h : ∀ fd v s, 0 ≤ (setfl fd v s).1) (hf : s.flags fd ≠ -1) : (setStatus (fun fd s => s.flags fd) setfl fd enable mask s).1 = fd := by
  unfold setStatus
  simp only []
  rw [if_neg]
  · generalize (if enable = true then (s.flags fd).signExtend 64 ||| mask else (s.flags fd).signExtend 64 &&& ~~~mask) = v
    have h1 := h fd v s
    rcases hr : setfl fd v s with ⟨rc, s'⟩
    rw [hr] at h1
    simp only [] at h1 ⊢
    rw [if_neg (by omega)]
  · intro he
    apply hf
    apply BitVec.eq_of_getLsbD_eq
    intro i hi
    have h1 := congrArg (fun b => b.getLsbD i) he
    simp only [BitVec.getLsbD_signExtend] at h1
    have h64 : i < 64 := by omega
    rw [show (-1 : BitVec 64) = BitVec.allOnes 64 by decide, BitVec.getLsbD_allOnes] at h1
    rw [show (-1 : BitVec 32) = BitVec.allOnes 32 by decide, BitVec.getLsbD_allOnes]
    simpa [hi, h64] using h1

/-- An option is set to the value, or nothing is changed and the result is negative, -8 exactly for a lack of permission. -/
theorem options_socket (set : Int → Name → Int → S → Answer × S) (h : HonestOption set) (fd : Int) (n : Name) (v : Int) (s : S) :
    ((set fd n v s).1 ≠ .ok ∧ (setSocket set fd n v s).1 < 0 ∧ ((setSocket set fd n v s).1 = -8 ↔ (set fd n v s).1 = .perm) ∧ (setSocket set fd n v s).2 = s) ∨
    ((set fd n v s).1 = .ok ∧ (setSocket set fd n v s).1 = fd ∧ (setSocket set fd n v s).2 = { s with value := fun x m => if x = fd ∧ m = n then v else s.value x m }) := by
  have h1 := h fd n v s
  unfold setSocket
  rcases hr : set fd n v s with ⟨a, s'⟩
  rw [hr] at h1
  simp only [] at h1 ⊢
  cases a <;> simp_all

/-- The size of a buffer is set to the size, or the largest possible value, and not changed if the size is negative. -/
theorem options_buffers (set : Int → Name → Int → S → Answer × S) (fd : Int) (size : Int) (s : S) :
    (size < 0 → setSend set fd size s = (fd, s) ∧ setReceive set fd size s = (fd, s)) ∧
    (0 ≤ size → setSend set fd size s = setSocket set fd .sndbuf (min size 2147483647) s ∧ setReceive set fd size s = setSocket set fd .rcvbuf (min size 2147483647) s) := by
  unfold setSend setReceive MAXIMUM
  refine ⟨fun h => by rw [if_pos h, if_pos h]; exact ⟨rfl, rfl⟩, fun h => ?_⟩
  rw [if_neg (show ¬ size < 0 by omega), if_neg (show ¬ size < 0 by omega)]
  by_cases hm : size > 2147483647
  · rw [if_pos hm, if_pos hm, Int.min_eq_right (by omega)]; exact ⟨rfl, rfl⟩
  · rw [if_neg hm, if_neg hm, Int.min_eq_left (by omega)]; exact ⟨rfl, rfl⟩

/-- A control value is returned, or -1. -/
theorem options_control {σ : Type} (ioctl : Int → σ → Option Int × σ) (fd : Int) (s : σ) :
    getControl ioctl fd s = ((ioctl fd s).1.getD (-1), (ioctl fd s).2) := by
  unfold getControl
  rcases hr : ioctl fd s with ⟨a, s'⟩
  cases a <;> rfl

/-- No ticks turn lingering off; others turn it on, for the least number of seconds that is not less, or the largest possible one. -/
theorem options_linger_value (ticks : BitVec 64) :
    (linger ticks).onoff = !decide (ticks = 0) ∧ ∃ sec, Seconds ticks.toNat sec ∧ (linger ticks).linger = min (sec : Int) 2147483647 := by
  have hlt := ticks.isLt
  have hF : FREQUENCY.toNat = 1000000000 := rfl
  have hsec : ∀ n, Seconds n ((n + 999999999) / 1000000000) := fun n => ⟨by omega, fun t ht => by omega⟩
  unfold linger
  by_cases h0 : ticks = 0
  · rw [if_pos h0]
    refine ⟨by simp [h0], 0, ⟨by simp [h0], fun t _ => by omega⟩, by decide⟩
  rw [if_neg h0]
  have hle : (ticks ≤ BitVec.allOnes 64 - FREQUENCY) ↔ ticks.toNat ≤ 18446744072709551615 := by
    rw [BitVec.le_def]
    have : (BitVec.allOnes 64 - FREQUENCY).toNat = 18446744072709551615 := by decide
    rw [this]
  by_cases hc : ticks ≤ BitVec.allOnes 64 - FREQUENCY
  · rw [if_pos hc]
    have hc' := hle.1 hc
    have hpos : ticks.toNat ≠ 0 := fun e => h0 (BitVec.eq_of_toNat_eq (by simpa using e))
    have e1 : (ticks + FREQUENCY).toNat = ticks.toNat + 1000000000 := by rw [BitVec.toNat_add, hF]; omega
    have e2 : (ticks + FREQUENCY - 1).toNat = ticks.toNat + 999999999 := by
      rw [BitVec.toNat_sub, e1, show (1 : BitVec 64).toNat = 1 from rfl]; omega
    have e3 : ((ticks + FREQUENCY - 1) / FREQUENCY).toNat = (ticks.toNat + 999999999) / 1000000000 := by rw [BitVec.toNat_udiv, e2, hF]
    refine ⟨by rw [decide_eq_false h0]; rfl, (ticks.toNat + 999999999) / 1000000000, hsec _, ?_⟩
    simp only []
    rw [e3]
    unfold MAXIMUM
    split <;> omega
  · rw [if_neg hc]
    have hc' : ¬ ticks.toNat ≤ 18446744072709551615 := fun h => hc (hle.2 h)
    refine ⟨by rw [decide_eq_false h0]; rfl, (ticks.toNat + 999999999) / 1000000000, hsec _, ?_⟩
    unfold MAXIMUM
    simp only []
    omega

/-- The option is set to that value, or nothing is changed and the result is negative. -/
theorem options_linger (set : Int → Linger → S → Int × S) (h : HonestLinger set) (fd : Int) (ticks : BitVec 64) (s : S) :
    ((set fd (linger ticks) s).1 < 0 ∧ (setLinger set fd ticks s).1 < 0 ∧ (setLinger set fd ticks s).2 = s) ∨
    (0 ≤ (set fd (linger ticks) s).1 ∧ (setLinger set fd ticks s).1 = fd ∧ (setLinger set fd ticks s).2 = { s with linger := fun x => if x = fd then linger ticks else s.linger x }) := by
  have h1 := h fd (linger ticks) s
  unfold setLinger
  rcases hr : set fd (linger ticks) s with ⟨a, s'⟩
  rw [hr] at h1
  simp only [] at h1 ⊢
  rcases h1 with ⟨h1, h2⟩ | ⟨h1, h2⟩
  · rw [if_pos h1]; exact Or.inl ⟨h1, by simp, h2⟩
  · rw [if_neg (by omega)]; exact Or.inr ⟨h1, rfl, h2⟩

example : linger 0#64 = ⟨false, 0⟩ ∧ linger 1#64 = ⟨true, 1⟩ ∧ linger 1000000000#64 = ⟨true, 1⟩ ∧ linger 1000000001#64 = ⟨true, 2⟩ ∧
    linger (BitVec.allOnes 64) = ⟨true, 2147483647⟩ := by decide

/-- A system in which everything succeeds. -/
example : HonestFlags (fun fd v s => (0, { s with flags := fun x => if x = fd then v.setWidth 32 else s.flags x })) := fun _ _ _ => Or.inr ⟨Int.le_refl _, rfl⟩
example : HonestOption (fun fd n v s => (.ok, { s with value := fun x m => if x = fd ∧ m = n then v else s.value x m })) := fun _ _ _ _ => Or.inr ⟨rfl, rfl⟩
example : HonestLinger (fun fd v s => (0, { s with linger := fun x => if x = fd then v else s.linger x })) := fun _ _ _ => Or.inr ⟨Int.le_refl _, rfl⟩
example : ((setStatus (σ := S) (fun fd s => s.flags fd) (fun fd v s => (0, { s with flags := fun x => if x = fd then v.setWidth 32 else s.flags x })) 3 true 2048#64
    ⟨fun _ => 2#32, fun _ _ => 0, fun _ => ⟨false, 0⟩⟩).2.flags 3) = 2050#32 := by decide

end Diminuto.Options
