import Verif.MemorysizeSpec

/-!
# Lemmas about the search for the size of a line of the cache
-/

namespace Diminuto.Memorysize

theorem loop_size (fs : List File) (ii : Nat) (v : Vars) : (loop fs ii v).leaked ≤ v.leaked + fs.countP (fun f => f.number.isNone && f != .absent) ∧ v.leaked ≤ (loop fs ii v).leaked := by
  induction fs generalizing ii v with
  | nil => simp [loop]
  | cons f fs ih =>
    cases f with
    | absent =>
      unfold loop
      have := ih (ii + 1) v
      rw [List.countP_cons]
      omega
    | present n c =>
      cases n with
      | none =>
        unfold loop
        have := ih (ii + 1) { v with leaked := v.leaked + 1 }
        rw [List.countP_cons, if_pos (by simp [File.number])]
        simp only [] at this
        omega
      | some n =>
        cases c <;> unfold loop
        · have := ih (ii + 1) { v with linesize := n }
          rw [List.countP_cons]
          simp only [] at this
          omega
        · split
          · simp
          · have := ih (ii + 1) { v with linesize := n }
            rw [List.countP_cons]
            simp only [] at this
            omega

end Diminuto.Memorysize
