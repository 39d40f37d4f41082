import Verif.ItimerLemmas

/-!
# Properties of the singleton timer (C168)

The full statement is `∀ strict h, AllDocumented h (run strict h).1`: whatever the calls and whenever they are made, the signal is sent when the latest one says, and a call returns what is left
of the timer before it.  It is false: `periodicity_counterexample` and `cancel_counterexample`.  What is proved is for calls that all ask for a periodic timer or all for one that is not, and for
less than 2^63 ticks; and what happens for other calls of less than 2^63 ticks is what would if all asked for what the one did that made the timer.
-/

namespace Diminuto.Itimer

/-- C168.  If all calls ask for the same periodicity, and for less than 2^63 ticks, all is as documented. -/
theorem setitimer_documented_partial (strict p : Bool) (h : List Event) (hp : Alike p h) (hs : Short h) : AllDocumented h (run strict h).1 := (run_sees strict p h hp hs).2

/-- The hypotheses hold for a timer that could not be made at first, is started, is started again before it expires, expires, and is cancelled. -/
example : let h := [.pass, .call 0 false true, .pass, .pass, .pass, .call 2 false false, .pass, .call 3 false true, .pass, .call 3 false false, Event.pass]
    Alike false h ∧ Short h ∧
    (run true h).1 = [.passed false, .returned 0, .passed false, .passed true, .passed false, .returned 2, .passed false, .returned 0, .passed false, .returned (-1), .passed false] := by
  refine ⟨?_, ?_, by decide +kernel⟩
  · intro t q r hm
    simp only [List.mem_cons, List.not_mem_nil, or_false, reduceCtorEq, false_or, Event.call.injEq] at hm
    rcases hm with ⟨-, e, -⟩ | ⟨-, e, -⟩ | ⟨-, e, -⟩ | ⟨-, e, -⟩ <;> exact e
  · intro t q r hm
    simp only [List.mem_cons, List.not_mem_nil, or_false, reduceCtorEq, false_or, Event.call.injEq] at hm
    rcases hm with ⟨e, -, -⟩ | ⟨e, -, -⟩ | ⟨e, -, -⟩ | ⟨e, -, -⟩ <;> subst e <;> decide

/-- C168.  What a call asks for is only looked at in the one that makes the timer: all is as documented for the calls as if they had asked for what that one did. -/
theorem setitimer_first_periodicity (strict p : Bool) (h : List Event) (hm : MadeWith p h) (hs : Short h) : AllDocumented (asIf p h) (run strict h).1 := by
  have := (run_sees strict p (asIf p h) (asIf_alike p h) (asIf_short p h hs)).2
  rw [asIf_made strict p h hm] at this
  exact this

theorem none_made : ¬ Made [] := by rintro ⟨_, _, h⟩; cases h

/-- A timer made by a call for a periodic one stays periodic. -/
example : MadeWith true [.pass, .pass, .call 1 false true, .call 9 true true] ∧
    (run true [.pass, .pass, .call 1 false true, .call 9 true true]).1 = [.passed true, .passed true, .returned 9, .returned 0] :=
  ⟨.later _ _ (.later _ _ (.later _ _ (.now 9 [] none_made))), by decide +kernel⟩

/-- C168.  The timer does not do what the latest call asks for if the first one asked for another periodicity: after a call for one signal, a call for a periodic one sends it but once. -/
theorem periodicity_counterexample (strict : Bool) : ∃ h, Short h ∧ ¬ AllDocumented h (run strict h).1 := by
  refine ⟨[.pass, .pass, .call 1 true true, .call 5 false true], ?_, ?_⟩
  · intro t q r hm
    simp only [List.mem_cons, List.not_mem_nil, or_false, reduceCtorEq, false_or, Event.call.injEq] at hm
    rcases hm with ⟨e, -, -⟩ | ⟨e, -, -⟩ <;> subst e <;> decide
  · intro h
    have e : (run strict [.pass, .pass, .call 1 true true, .call 5 false true]).1 = [.passed false, .passed true, .returned 5, .returned 0] := by
      cases strict <;> decide +kernel
    rw [e] at h
    cases h with
    | cons _ _ _ _ ho _ =>
      have hl : Latest [.pass, .pass, .call 1 true true, .call 5 false true] ⟨1, true, 2⟩ := .later _ ⟨1, true, 1⟩ (.later _ ⟨1, true, 0⟩ (.now 1 true true _ (Or.inl rfl)))
      cases ho with
      | sounds _ q _ hq ha =>
        rw [latest_unique hq hl] at ha
        exact absurd (ha.mpr ⟨by decide, by decide, Or.inr ⟨rfl, ⟨2, rfl⟩⟩⟩) (by decide)
      | silence _ hn => exact hn _ (.later _ ⟨1, true, 0⟩ (.now 1 true true _ (Or.inl rfl)))

/-- C168.  On Linux, after a call for 2^63 ticks or more, which fails, a periodic timer cannot be cancelled: the call for no ticks fails as well, and the signals go on. -/
theorem cancel_counterexample : ∃ h, (run true (.pass :: .call 0 true true :: h)).1.take 2 = [.passed true, .returned (-1)] ∧ Alike true (.pass :: .call 0 true true :: h) := by
  refine ⟨[.call (BitVec.ofNat 64 (2 ^ 64 - 1)) true true, .call 1 true true], by decide +kernel, ?_⟩
  intro t q r hm
  simp only [List.mem_cons, List.not_mem_nil, or_false, reduceCtorEq, false_or, Event.call.injEq] at hm
  rcases hm with ⟨-, e, -⟩ | ⟨-, e, -⟩ | ⟨-, e, -⟩ <;> exact e

theorem latest_passes (t : BitVec 64) (p r : Bool) (h : List Event) (hr : r = true ∨ Made h) (n : Nat) : Latest (List.replicate n .pass ++ .call t p r :: h) ⟨t.toNat, p, n⟩ := by
  induction n with
  | zero => exact .now t p r h hr
  | succ n ih => exact .later _ ⟨t.toNat, p, n⟩ ih

theorem mem_passes {e : Event} {n : Nat} {t : BitVec 64} {p r : Bool} {h : List Event} (hm : e ∈ List.replicate n .pass ++ .call t p r :: h) (hc : e ≠ .pass) : e ∈ .call t p r :: h := by
  rcases List.mem_append.mp hm with x | x
  · exact absurd (List.eq_of_mem_replicate x) hc
  · exact x

/-- C168.  As long as no other call is made, a call that takes effect has the signal sent as many ticks later as it asks for, every such time if it is periodic, and not at another time; and never if it
asks for no ticks. -/
theorem setitimer_sounds (strict p : Bool) (t : BitVec 64) (r : Bool) (h : List Event) (hr : r = true ∨ Made h) (hp : Alike p (.call t p r :: h)) (hs : Short (.call t p r :: h)) (n : Nat) :
    (run strict (List.replicate (n + 1) .pass ++ .call t p r :: h)).1.head? =
      some (.passed (decide (t.toNat ≠ 0 ∧ (n + 1 = t.toNat ∨ (p = true ∧ t.toNat ∣ n + 1))))) := by
  have ha := (run_sees strict p (List.replicate (n + 1) .pass ++ .call t p r :: h) (fun _ _ _ hm => hp _ _ _ (mem_passes hm (by simp)))
    (fun _ _ _ hm => hs _ _ _ (mem_passes hm (by simp)))).2
  have hl := latest_passes t p r h hr (n + 1)
  rw [List.replicate_succ, List.cons_append] at ha hl ⊢
  generalize hL : List.replicate n Event.pass ++ Event.call t p r :: h = L at ha hl
  generalize (run strict (.pass :: L)).1 = os at ha
  cases ha with
  | cons _ _ o os ho _ =>
    simp only [List.head?_cons, Option.some.injEq]
    cases ho with
    | sounds _ q a hq ha =>
      have := latest_unique hq hl
      subst this
      congr 1
      rw [Bool.eq_iff_iff, ha, decide_eq_true_eq]
      simp only [Request.Sounds, Nat.pos_iff_ne_zero]
      constructor
      · rintro ⟨a, _, b⟩; exact ⟨a, b⟩
      · rintro ⟨a, b⟩; exact ⟨a, Nat.succ_ne_zero n, b⟩
    | silence _ hn => subst hL; exact absurd (latest_passes t p r h hr n) (hn _)

/-- A timer of three ticks sends the signal at the sixth. -/
example : (run true (List.replicate 6 .pass ++ [.call 3 true true])).1.head? = some (.passed true) ∧ ((run true (List.replicate 5 .pass ++ [.call 3 true true])).1.head? = some (.passed false)) := by
  decide +kernel

/-- C168.  A call returns what is left: after `n` ticks, what remains of those that the call before it asked for, or, if it is periodic, what remains until the next time. -/
theorem setitimer_left (strict p : Bool) (t t' : BitVec 64) (r r' : Bool) (h : List Event) (hr : r = true ∨ Made h) (n : Nat)
    (hp : Alike p (.call t p r :: h)) (hs : Short (.call t p r :: h)) (ht : t'.toNat < 2 ^ 63) :
    (run strict (.call t' p r' :: (List.replicate n .pass ++ .call t p r :: h))).1.head? = some (.returned ((if p then t.toNat - n % t.toNat else t.toNat - n : Nat) : Int)) := by
  have ha := (run_sees strict p (.call t' p r' :: (List.replicate n .pass ++ .call t p r :: h))
    (fun _ _ _ hm => by
      rcases List.mem_cons.mp hm with x | x
      · injection x
      · exact hp _ _ _ (mem_passes x (by simp)))
    (fun _ _ _ hm => by
      rcases List.mem_cons.mp hm with x | x
      · injection x with x; subst x; exact ht
      · exact hs _ _ _ (mem_passes x (by simp)))).2
  have hl := latest_passes t p r h hr n
  generalize List.replicate n Event.pass ++ Event.call t p r :: h = L at ha hl
  generalize (run strict (.call t' p r' :: L)).1 = os at ha
  cases ha with
  | cons _ _ o os ho _ =>
    simp only [List.head?_cons, Option.some.injEq]
    cases ho with
    | left _ _ _ _ q hq =>
      rw [latest_unique hq hl]
      simp only [Request.left]
    | first _ _ _ hn => exact absurd (latest_made hl) hn
    | error _ _ _ hn => exact absurd (latest_made hl) hn

/-- Two of five ticks are left, and none of a timer that has expired. -/
example : (run true (.call 0 false true :: (List.replicate 3 .pass ++ [.call 5 false true]))).1.head? = some (.returned 2) ∧
    (run true (.call 0 false true :: (List.replicate 7 .pass ++ [.call 5 false true]))).1.head? = some (.returned 0) := by decide +kernel

end Diminuto.Itimer
