import Verif.TreeProps

/-!
# The closest node of a store

`diminuto_store_find_close`, `Diminuto/inc/com/diag/diminuto/diminuto_store.h:206-209`, is `search`.
-/

namespace Diminuto.Tree

open T

variable {N M : Nat} {cmp : Fin M → Fin N → Fin N → Int}

/-- C117.  After any calls, from the root of a store: null exactly if the store is empty, and then the return code is not set.  Otherwise a node of the store with the result of its comparison, and no node of the store is
between it and the target: if it is less then those greater than it are greater than the target, and if it is greater then those less than it are less than the target; and if it is neither then no other node matches. -/
theorem store_find_close (hc : ∀ rt, IsOrder (cmp rt)) (ops : List (StoreOp N M)) {h : Heap N M} {rs : List (Option (Fin N))}
    (hr : codeRun cmp (fresh N M) ops = some (h, rs)) (rt : Fin M) (q : Fin N) :
    let own := (specRun cmp (fun _ => none) ops).1
    ((∀ x, own x ≠ some rt) ∧ search h (fun n => cmp rt n q) (h.top rt) = some none) ∨
    ∃ n, own n = some rt ∧ search h (fun n => cmp rt n q) (h.top rt) = some (some (n, cmp rt n q)) ∧
      (cmp rt n q < 0 → ∀ m, own m = some rt → cmp rt n m < 0 → 0 < cmp rt m q) ∧
      (0 < cmp rt n q → ∀ m, own m = some rt → cmp rt m n < 0 → cmp rt m q < 0) ∧
      (cmp rt n q = 0 → ∀ m, own m = some rt → m ≠ n → cmp rt m q ≠ 0) := by
  obtain ⟨h', ts', e, S⟩ := Sto.fresh.run hc ops
  rw [e] at hr
  simp only [Option.some.injEq, Prod.mk.injEq] at hr
  obtain ⟨rfl, _⟩ := hr
  rcases search_spec (q := fun n => cmp rt n q) (S.rep.tr rt).holds with ⟨h1, h2⟩ | ⟨n, A, B, h2, h3, -, -, h6⟩
  · left
    refine ⟨fun x hx => ?_, h2⟩
    have := S.mem.mpr hx
    rw [h1] at this
    simp [inorder] at this
  · right
    have hs := S.sorted rt
    obtain ⟨ha, hb⟩ := h6 ((hc rt).mono hs q)
    rw [h3] at hs
    simp only [List.pairwise_append, List.pairwise_cons, List.mem_cons] at hs
    have hm : ∀ m, (specRun cmp (fun _ => none) ops).1 m = some rt → m ∈ A ∨ m = n ∨ m ∈ B := by
      intro m hm
      have := S.mem.mpr hm
      rw [h3] at this
      simpa using this
    have hAn : ∀ m ∈ A, cmp rt m n < 0 := fun m hm => hs.2.2 m hm n (Or.inl rfl)
    have hnB : ∀ m ∈ B, cmp rt n m < 0 := fun m hm => hs.2.1.1 m hm
    refine ⟨n, S.mem.mp (by rw [h3]; simp), h2, fun hl m hm' hnm => ?_, fun hl m hm' hnm => ?_, fun hl m hm' hne => ?_⟩
    · rcases hm m hm' with hA | rfl | hB
      · have := ((hc rt).flip m n).mp (hAn m hA); omega
      · rw [(hc rt).refl] at hnm; omega
      · exact hb m hB
    · rcases hm m hm' with hA | rfl | hB
      · exact ha m hA
      · rw [(hc rt).refl] at hnm; omega
      · have := ((hc rt).flip n m).mp (hnB m hB); omega
    · rcases hm m hm' with hA | hx | hB
      · have : cmp rt m q < 0 := ha m hA; omega
      · exact absurd hx hne
      · have : 0 < cmp rt m q := hb m hB; omega

/-- With 1, 4 and 5 in the store, a search for 2 or 3 finds one of their neighbours. -/
example : ((codeRun (fun _ => byNumber) (fresh 7 1) [.put 0 1 false, .put 0 4 false, .put 0 5 false]).bind fun r =>
    (search r.1 (fun n => byNumber n 2) (r.1.top 0)).bind fun a => (search r.1 (fun n => byNumber n 6) (r.1.top 0)).map fun b => (a, b)) =
    some (some (1, -1), some (5, -1)) := by decide

end Diminuto.Tree
