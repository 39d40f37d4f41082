import Verif.PollLemmas3

/-!
# Property C74: the poller
-/

namespace Diminuto.Poll

open Diminuto.Mux (Kind Regs Clean)

/-- Nothing is registered. -/
abbrev none' : Regs := fun _ _ => false

/-- C74: a wait returns the number of registered descriptors for which a condition holds that is asked for, or that have an error; and then any number
of calls of a ready function return those that are registered in the set and for which its condition holds, each once, and then -1.  Assumes that
there is memory, that whenever a registered descriptor has been closed, a descriptor has been registered or unregistered before the next
wait, and that there is no descriptor of the other set with the same condition between the descriptors of a set.  The property has none of these
conditions. -/
theorem poll_wait_exact_partial (ops : List Op) (hf : Fresh none' false ops) (hs : Safe none' ops)
    (hc : closedRun none' false ops = false) (hg : Separate (regsRun none' ops)) (forever : Bool) (c : Nat → Cond) :
    ∃ p rs p', run init ops = some (p, rs) ∧ step p (.wait forever true (.polled c)) = some (p', (dues (regsRun none' ops) c : Int)) ∧
      (dues (regsRun none' ops) c > 0 → ∀ k, ∃ l : List Nat, l.Nodup ∧ (∀ i, i ∈ l ↔ regsRun none' ops k i = true ∧ holds k (c i) = true) ∧
        ∀ n, Mux.drain (p'.mux.set k) n = some ((l.map (fun i : Nat => (i : Int)) ++ List.replicate n (-1)).take n)) ∧
      (dues (regsRun none' ops) c = 0 → ∀ k, p'.mux.set k = p.mux.set k) := by
  obtain ⟨p, rs, e1, e2⟩ := run_sub ops init none' false inv_init (by intro k i h; cases h) hf hs
  have hi := run_inv hf e1
  obtain ⟨p', a1, a2, a3, a4⟩ := wait_polled hi.sets (fun hr => hi.made hr hc) forever c
  refine ⟨p, rs, p', e1, a1, ?_, ?_⟩
  · intro hd k
    exact drain_after hi.mux c hd (fun k => by rw [a4 k, if_pos hd]) k (sub_clean (wait_sub hi.mux e2 hg c a4) k)
  · intro hd k
    have hd' : ¬ dues (regsRun none' ops) c > 0 := by omega
    exact (a4 k).trans (if_neg hd')

/-- C74: the same without the condition on descriptors between others: the number is right, and a bit of a registered descriptor is set if and
only if the condition of the set holds. -/
theorem poll_wait_bits_partial (ops : List Op) (p : Poll) (rs : List Int) (h : run init ops = some (p, rs)) (hf : Fresh none' false ops)
    (hc : closedRun none' false ops = false) (forever : Bool) (c : Nat → Cond) :
    ∃ p', step p (.wait forever true (.polled c)) = some (p', (dues (regsRun none' ops) c : Int)) ∧
      (dues (regsRun none' ops) c > 0 → ∀ k i, regsRun none' ops k i = true → (p'.mux.set k).ready i = holds k (c i)) := by
  have hi := run_inv hf h
  obtain ⟨p', a1, a2, a3, a4⟩ := wait_polled hi.sets (fun hr => hi.made hr hc) forever c
  refine ⟨p', a1, fun hd k i hg => ?_⟩
  rw [a4 k, if_pos hd, (Mux.reset_fields _).2.1]
  show bitsOf _ c k (p.mux.set k) i = _
  unfold bitsOf
  have := (hi.mux.sets k).bounds.1 i (by rw [hi.mux.active]; exact hg)
  rw [if_pos this, if_pos (any_of hg)]
  have : asked (regsRun none' ops) k i = true := by cases k <;> simp [asked, hg]
  rw [this, Bool.true_and]

/-- C74: if a wait returns a positive number and no descriptor has an error, then there is a registered descriptor for which the condition of its
set holds. -/
theorem poll_wait_progress (g : Regs) (c : Nat → Cond) (h : dues g c > 0) (he : ∀ i, (c i).err = false) :
    ∃ k i, g k i = true ∧ holds k (c i) = true := by
  unfold dues at h
  obtain ⟨i, hi⟩ := List.exists_mem_of_length_pos h
  have := (List.mem_filter.1 hi).2
  unfold due at this
  simp only [he i, Bool.and_eq_true, Bool.or_eq_true, Bool.false_eq_true, false_or] at this
  rcases this.2 with (((h | h) | h) | h) | h
  · exact ⟨.read, i, h.1, h.2⟩
  · exact ⟨.write, i, h.1, h.2⟩
  · exact ⟨.accept, i, h.1, h.2⟩
  · exact ⟨.urgent, i, h.1, h.2⟩
  · exact ⟨.interrupt, i, h.1, h.2⟩

/-- C74: under these conditions no call has undefined behaviour. -/
theorem poll_defined_partial (ops : List Op) (hf : Fresh none' false ops) (hs : Safe none' ops) : ∃ p rs, run init ops = some (p, rs) := by
  obtain ⟨p, rs, e1, -⟩ := run_sub ops init none' false inv_init (by intro k i h; cases h) hf hs
  exact ⟨p, rs, e1⟩

/-- Input is available from these descriptors, and nothing else; these have an error. -/
def input (l e : List Nat) : Nat → Cond := fun i => ⟨l.contains i, false, false, e.contains i⟩

/-- C74 is false in general: after the close of descriptor 4, which is an error from then on, the kernel is still asked about it and no more
about descriptor 6; each wait returns at once, and the input from descriptor 6 is never found. -/
theorem poll_close_lost_counterexample :
    ∃ p rs, run init [.register .read 4, .register .read 6, .wait true true (.polled (input [6] [])), .ready .read, .close 4 true,
        .wait true true (.polled (input [6] [4])), .ready .read, .wait true true (.polled (input [6] [4])), .ready .read] = some (p, rs) ∧
      rs = [4, 6, 1, 6, 0, 1, -1, 1, -1] :=
  ⟨_, _, rfl, rfl⟩

/-- C74: and if 4 becomes the number of another file, which is not registered, its input is taken for input from descriptor 6. -/
theorem poll_close_wrong_counterexample :
    ∃ p rs, run init [.register .read 4, .register .read 6, .wait true true (.polled (input [6] [])), .ready .read, .close 4 true,
        .wait true true (.polled (input [4] [])), .ready .read] = some (p, rs) ∧
      rs = [4, 6, 1, 6, 0, 1, 6] :=
  ⟨_, _, rfl, rfl⟩

/-- C74: a descriptor that has only an error is counted, but no ready function returns it, and so a loop that waits without limit does not wait. -/
theorem poll_error_counterexample :
    ∃ p rs, run init [.register .read 4, .wait true true (.polled (input [] [4])), .ready .read, .ready .write, .ready .accept, .ready .urgent,
        .ready .interrupt] = some (p, rs) ∧
      rs = [4, 1, -1, -1, -1, -1, -1] :=
  ⟨_, _, rfl, rfl⟩

/-- C74: an accepting descriptor between two reading descriptors is ready, and the ready function for reading clears the bit of descriptor -1,
which is undefined behaviour. -/
theorem poll_ready_counterexample :
    ∃ p rs, run init [.register .read 4, .register .accept 5, .register .read 6, .wait true true (.polled (input [5] []))] = some (p, rs) ∧
      rs = [4, 5, 6, 1] ∧ step p (.ready .read) = none :=
  ⟨_, _, rfl, rfl, rfl⟩

/-- C74: the result of the allocation is not examined. -/
theorem poll_memory_counterexample : ∃ p rs, run init [.register .read 4] = some (p, rs) ∧ step p (.wait true false (.polled (input [4] []))) = none :=
  ⟨_, _, rfl, rfl⟩

/-- C74: with no descriptor, a wait without limit does not wait for a signal, as which `ppoll(2)` would fail. -/
theorem poll_forever_counterexample : ∃ p, step init (.wait true true .error) = some (p, 0) := ⟨_, rfl⟩

/-- A history that meets the conditions, with a descriptor that is registered twice, one that is closed, and an accepting descriptor. -/
example : Fresh none' false [.register .read 4, .register .read 6, .register .write 6, .register .accept 9, .wait true true (.polled (input [4, 6] [])),
      .close 4 true, .register .read 5] ∧
    Safe none' [.register .read 4, .register .read 6, .register .write 6, .register .accept 9, .wait true true (.polled (input [4, 6] [])),
      .close 4 true, .register .read 5] ∧
    closedRun none' false [.register .read 4, .register .read 6, .register .write 6, .register .accept 9, .wait true true (.polled (input [4, 6] [])),
      .close 4 true, .register .read 5] = false ∧
    ∃ p rs, run init [.register .read 4, .register .read 6, .register .write 6, .register .accept 9, .wait true true (.polled (input [4, 6] [])),
      .close 4 true, .register .read 5, .wait false true (.polled (input [5, 9] [])), .ready .read, .ready .read, .ready .accept] = some (p, rs) ∧
      rs = [4, 6, 6, 9, 2, 0, 5, 2, 5, -1, 9] := by
  refine ⟨?_, ?_, rfl, _, _, rfl, rfl⟩
  · simp [Fresh, WaitOk, closedAfter]
  · refine ⟨by simp, by simp, by simp, by simp, ?_, by simp, by simp, trivial⟩
    intro f a e he
    simp only [Op.wait.injEq] at he
    refine ⟨he.2.1.symm, ?_⟩
    intro k j hj a b i
    cases k <;> simp only [Mux.sibling, Option.some.injEq, reduceCtorEq] at hj
    all_goals subst hj
    all_goals simp [regsAfter, Mux.Valid]
    all_goals omega

end Diminuto.Poll
