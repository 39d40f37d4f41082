import Verif.GpiotoolLemmas

/-!
# Property C177: the tool gets and puts the value of a pin, and gives the pin back
-/

namespace Diminuto.Gpiotool

open Pin

/-- C177: the arguments are refused, and nothing is done, if they do not ask for something. -/
theorem main_refuses {σ : Type} (w : World σ) (root : Name) (ticks : BitVec 64) (tries : Nat) (args : List (List Byte)) (s : σ) (h : ¬ ∃ pin v, Asks args pin v) : main w root ticks tries args s = ⟨1, [], s⟩ := by
  match args with
  | [] => rfl
  | [p] =>
    unfold main
    simp only []
    by_cases hp : (Number.unsigned p).2.1 ≠ []
    · rw [if_pos hp]
    · exact absurd ⟨_, _, .get ((Phextool.sized_iff p _).2 ⟨by simpa using hp, rfl⟩)⟩ h
  | [p, v] =>
    unfold main
    simp only []
    by_cases hp : (Number.unsigned p).2.1 ≠ []
    · rw [if_pos hp]
    · rw [if_neg hp]
      by_cases hv : (Number.unsigned v).2.1 ≠ []
      · rw [if_pos hv]
      · exact absurd ⟨_, _, .put ((Phextool.sized_iff p _).2 ⟨by simpa using hp, rfl⟩) ((Phextool.sized_iff v _).2 ⟨by simpa using hv, rfl⟩)⟩ h
  | p :: v :: x :: r =>
    unfold main
    simp only []
    by_cases hp : (Number.unsigned p).2.1 ≠ []
    · rw [if_pos hp]
    · rw [if_neg hp]
      by_cases hv : (Number.unsigned v).2.1 ≠ []
      · rw [if_pos hv]
      · rw [if_neg hv]

/-- C177, in part: with the kernel of the specification, of which the files are there within fewer delays than there are tries, and a pin that is not in use and is less than 2^31, the program prints the value of the pin, or sets its value, exits with zero, and gives the pin back.  Greater numbers are missing: `narrow_counterexample`. -/
theorem main_pin_partial (root : Name) (ticks : BitVec 64) (tries : Nat) (args : List (List Byte)) (pin : Nat) (v : Option Nat) (h : Asks args pin v) (hp : pin < 2 ^ 31) (k : Kernel) (hk : k.Fresh) (he : k.exported = false) (ht : k.lag < tries)
    (f : Name) (hf : Names root .direction pin f) (hl : f.length < 4096) :
    ∃ k', After k k' v.isSome (match v with | some v => decide (v ≠ 0) | none => k.value) ∧
      main (kernel root pin) root ticks tries args k = ⟨0, match v with | some _ => [] | none => [if k.value then 49#8 else 48#8, 10#8], k'⟩ := by
  have e := names_unique _ _ _ _ hf
  rw [e] at hl
  cases h with
  | get h =>
    obtain ⟨h1, h2⟩ := (Phextool.sized_iff _ _).1 h
    refine ⟨{ k with lag := 0, output := false, next := k.next + 4 }, ⟨he, rfl, rfl, rfl⟩, ?_⟩
    unfold main
    simp only []
    rw [if_neg (by simpa using h1), h2, narrow_small pin hp]
    exact gets_kernel root pin ticks tries k hk he ht hl
  | put h hv =>
    obtain ⟨h1, h2⟩ := (Phextool.sized_iff _ _).1 h
    obtain ⟨h3, h4⟩ := (Phextool.sized_iff _ _).1 hv
    refine ⟨{ k with lag := 0, output := true, value := decide (_ ≠ 0), next := k.next + 4 }, ⟨he, rfl, rfl, rfl⟩, ?_⟩
    unfold main
    simp only []
    rw [if_neg (by simpa using h1), h2, narrow_small pin hp, if_neg (by simpa using h3), h4]
    exact puts_kernel root pin ticks tries _ k hk he ht hl

/-- C177: whatever the system does, the status is zero or one, and something is printed exactly if it is zero and a value was asked for; it is then one digit. -/
theorem main_prints {σ : Type} (w : World σ) (root : Name) (ticks : BitVec 64) (tries : Nat) (args : List (List Byte)) (s : σ) :
    ((main w root ticks tries args s).status = 0 ∨ (main w root ticks tries args s).status = 1) ∧
    ((main w root ticks tries args s).printed ≠ [] ↔ (main w root ticks tries args s).status = 0 ∧ args.length = 1) ∧
    ((main w root ticks tries args s).printed ≠ [] → (main w root ticks tries args s).printed = [48#8, 10#8] ∨ (main w root ticks tries args s).printed = [49#8, 10#8]) ∧
    ((main w root ticks tries args s).status = 0 → ∃ pin v, Asks args pin v) := by
  have ha : (main w root ticks tries args s).status = 0 → ∃ pin v, Asks args pin v := by
    intro h
    by_cases hx : ∃ pin v, Asks args pin v
    · exact hx
    · rw [main_refuses w root ticks tries args s hx] at h; exact absurd h (by simp)
  suffices hs : ∀ o : Outcome σ, o = main w root ticks tries args s → (o.status = 0 ∨ o.status = 1) ∧ (o.printed ≠ [] ↔ o.status = 0 ∧ args.length = 1) ∧ (o.printed ≠ [] → o.printed = [48#8, 10#8] ∨ o.printed = [49#8, 10#8]) from
    ⟨(hs _ rfl).1, (hs _ rfl).2.1, (hs _ rfl).2.2, ha⟩
  have refused : ∀ (s' : σ), ((⟨1, [], s'⟩ : Outcome σ).status = 0 ∨ (⟨1, [], s'⟩ : Outcome σ).status = 1) ∧ ((⟨1, [], s'⟩ : Outcome σ).printed ≠ [] ↔ (⟨1, [], s'⟩ : Outcome σ).status = 0 ∧ args.length = 1) ∧
      ((⟨1, [], s'⟩ : Outcome σ).printed ≠ [] → (⟨1, [], s'⟩ : Outcome σ).printed = [48#8, 10#8] ∨ (⟨1, [], s'⟩ : Outcome σ).printed = [49#8, 10#8]) := by
    intro s'; simp
  rintro o rfl
  match args with
  | [] => exact refused s
  | [p] =>
    unfold main gets
    simp only []
    repeat' split
    all_goals first
      | exact refused _
      | skip
    all_goals simp_all
    all_goals split <;> simp
  | [p, v] =>
    unfold main puts
    simp only []
    repeat' split
    all_goals first
      | exact refused _
      | skip
    all_goals simp
  | p :: v :: x :: r =>
    unfold main
    simp only []
    repeat' split
    all_goals exact refused _

/-- `gpiotool 3`, `gpiotool 3 1` and `gpiotool 3 1 1`, where the files of the pin are there after two delays. -/
example : main (kernel (ascii "/sys") 3) (ascii "/sys") 5#64 8 [ascii "3"] ⟨false, 2, true, true, [], 0⟩ = ⟨0, ascii "1\n", ⟨false, 0, false, true, [], 4⟩⟩ ∧
    main (kernel (ascii "/sys") 3) (ascii "/sys") 5#64 8 [ascii "3", ascii "1"] ⟨false, 2, false, false, [], 0⟩ = ⟨0, [], ⟨false, 0, true, true, [], 4⟩⟩ ∧
    main (kernel (ascii "/sys") 3) (ascii "/sys") 5#64 8 [ascii "3", ascii "1", ascii "1"] ⟨false, 2, false, false, [], 0⟩ = ⟨1, [], ⟨false, 2, false, false, [], 0⟩⟩ := by decide +kernel

/-- C177: whatever the system does, if the status is zero the digit that is printed has been read from the beginning of the file of the value, or the digit for the value has been written there without an error. -/
theorem main_succeeds {σ : Type} (w : World σ) (root : Name) (ticks : BitVec 64) (tries : Nat) (args : List (List Byte)) (s : σ) (pin : Nat) (v : Option Nat) (ha : Asks args pin v) (h : (main w root ticks tries args s).status = 0) :
    (v = none → ∃ fp s' c r, (w.lseek fp s').1 = true ∧ (w.read fp 2 (w.lseek fp s').2).1 = some (c :: r) ∧ (main w root ticks tries args s).printed = [c, 10#8]) ∧
    (∀ n, v = some n → ∃ fp s', (w.lseek fp s').1 = true ∧ 0 ≤ (w.write fp [if n = 0 then 48#8 else 49#8, 10#8] (w.lseek fp s').2).1) := by
  cases ha with
  | @get p _ hp =>
    refine ⟨fun _ => ?_, fun n hn => (nomatch hn)⟩
    obtain ⟨h1, h2⟩ := (Phextool.sized_iff p pin).1 hp
    have hm : main w root ticks tries [p] s = gets w root ticks tries (narrow (Number.unsigned p).1) s := by
      unfold main
      simp only []
      rw [if_neg (by simpa using h1)]
    rw [hm] at h ⊢
    unfold gets at h ⊢
    cases hs : setup w root ticks tries (narrow (Number.unsigned p).1) false s with
    | mk o s1 =>
      rw [hs] at h
      cases o with
      | none => exact absurd h (by simp)
      | some fp =>
        simp only [] at h ⊢
        cases hg : Pin.get w fp s1 with
        | mk state s2 =>
          rw [hg] at h
          simp only [] at h ⊢
          by_cases hn : state < 0
          · rw [if_pos hn] at h
            exact absurd h (by simp)
          · obtain ⟨c, r, g1, g2, g3⟩ := get_reads w fp s1 (by rw [hg]; simpa using hn)
            rw [hg] at g3
            refine ⟨fp, s1, c, r, g1, g2, ?_⟩
            rw [if_neg hn, g3]
  | @put p q _ n hp hq =>
    refine ⟨fun hn => (nomatch hn), ?_⟩
    rintro m hm'
    cases hm'
    obtain ⟨h1, h2⟩ := (Phextool.sized_iff p pin).1 hp
    obtain ⟨h3, h4⟩ := (Phextool.sized_iff q n).1 hq
    have hm : main w root ticks tries [p, q] s = puts w root ticks tries (narrow (Number.unsigned p).1) n s := by
      unfold main
      simp only []
      rw [if_neg (by simpa using h1), if_neg (by simpa using h3), h4]
    rw [hm] at h
    unfold puts at h
    cases hs : setup w root ticks tries (narrow (Number.unsigned p).1) true s with
    | mk o s1 =>
      rw [hs] at h
      cases o with
      | none => exact absurd h (by simp)
      | some fp =>
        simp only [] at h
        cases hg : Pin.put w fp (decide (n ≠ 0)) s1 with
        | mk ok s2 =>
          rw [hg] at h
          simp only [] at h
          cases ok with
          | false => exact absurd h (by simp)
          | true =>
            have := put_writes w fp (decide (n ≠ 0)) s1 (by rw [hg])
            refine ⟨fp, s1, this.1, ?_⟩
            have ht : (if decide (n ≠ 0) = true then ascii "1\n" else ascii "0\n") = [if n = 0 then 48#8 else 49#8, 10#8] := by
              by_cases h0 : n = 0
              · rw [if_neg (by simpa using h0), if_pos h0]; rfl
              · rw [if_pos (by simpa using h0), if_neg h0]; rfl
            rw [← ht]
            exact this.2

/-- The hypotheses of `main_pin_partial` are met. -/
example : Asks [ascii "3", ascii "1"] 3 (some 1) ∧ Kernel.Fresh ⟨false, 2, false, false, [], 0⟩ := ⟨.put ((Phextool.sized_iff _ _).2 (by decide +kernel)) ((Phextool.sized_iff _ _).2 (by decide +kernel)), fun _ h => (nomatch h)⟩

/-- C177, false of large numbers: pin 4294967299 is asked for, and pin 3 is set. -/
theorem narrow_counterexample : Asks [ascii "4294967299", ascii "1"] 4294967299 (some 1) ∧
    main (kernel (ascii "/sys") 3) (ascii "/sys") 5#64 8 [ascii "4294967299", ascii "1"] ⟨false, 0, false, false, [], 0⟩ = ⟨0, [], ⟨false, 0, true, true, [], 4⟩⟩ :=
  ⟨.put ((Phextool.sized_iff _ _).2 (by decide +kernel)) ((Phextool.sized_iff _ _).2 (by decide +kernel)), by decide +kernel⟩

/-- C177, false of a pin whose files come too late: it stays exported. -/
theorem late_counterexample : main (kernel (ascii "/sys") 3) (ascii "/sys") 5#64 8 [ascii "3"] ⟨false, 9, false, false, [], 0⟩ = ⟨1, [], ⟨true, 2, false, false, [], 1⟩⟩ := by decide +kernel

end Diminuto.Gpiotool
