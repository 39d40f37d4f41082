import Verif.PoolLemmas

/-!
# Property C67: the Pool
-/

namespace Diminuto.Pool

open Diminuto.DList Diminuto.Well

variable {N : Nat}

/-- C67: any number of pools; every history in which the application frees only objects that it holds,
which may be on lists of its own, and `malloc` returns only what is not allocated, is defined and returns what
the specification says. -/
theorem pool_refines (kind : Fin N → Kind) (os : List (Op N)) (v : View N) (rs : List (Option (Fin N)))
    (h : View.Run kind (View.start N) os v rs) :
    ∃ s, run (start N) os = some (s, rs) ∧ ∀ n, s.live n = (v.owner n).isSome := by
  obtain ⟨s, e, hi⟩ := run_inv kind os _ _ _ h _ (inv_start kind)
  exact ⟨s, e, hi.live⟩

/-- C67: an object is in at most one place: never twice in a queue, never in two pools, and it is in no pool but the
one that it is from. -/
theorem pool_no_duplicates (kind : Fin N → Kind) (os : List (Op N)) (v : View N) (rs : List (Option (Fin N)))
    (h : View.Run kind (View.start N) os v rs) (p : Fin N) :
    (v.queue p).Nodup ∧ ∀ n ∈ v.queue p, v.owner n = some p := by
  obtain ⟨s, e, hi⟩ := run_inv kind os _ _ _ h _ (inv_start kind)
  refine ⟨?_, hi.owned p⟩
  by_cases hp : kind p = .pool
  · obtain ⟨A, hR, hpool, -⟩ := hi.rep
    have := (hR.1 _ (hpool p hp)).1
    simp only [List.nodup_cons] at this
    exact this.2
  · rw [hi.queues p hp]
    simp

/-- The objects are recycled in the order in which they were freed, each by the pool it is from: two pools (0 and 1), three
objects (2, 3, 4), a list of the application (5). -/
example : (run (start 6) [.alloc 0 (some 2), .alloc 0 (some 3), .alloc 1 (some 4), .link 5 3, .free 3, .free 4, .free 2,
      .alloc 0 none, .alloc 0 none, .alloc 0 none, .alloc 1 none]).map (·.2) =
    some [some 2, some 3, some 4, none, none, none, none, some 3, some 2, none, some 4] := by decide

example : ∃ v rs, View.Run (fun n : Fin 6 => if n.val < 2 then .pool else if n.val < 5 then .object else .other)
    (View.start 6) [.alloc 0 (some 2), .link 5 2, .free 2, .alloc 0 none] v rs ∧ rs = [some 2, none, none, some 2] :=
  ⟨_, _, .cons (.grow rfl rfl rfl rfl) (.cons (.link (.inl rfl) ⟨by simp, fun _ => by simp [View.start]⟩)
    (.cons (.free (p := 0) rfl ⟨by simp, fun _ => by simp [View.start]⟩)
      (.cons (.take (q := []) rfl rfl) .nil))), rfl⟩

/-- C67 without the precondition: an object that is freed twice in a row is lost, neither in the pool nor held. -/
theorem pool_double_free_counterexample :
    (run (start 3) [.alloc 0 (some 1), .free 1, .free 1, .alloc 0 none]).map (·.2) =
      some [some 1, none, none, none] := by decide

/-- The allocation size has room for the link and the object, unless it overflows. -/
theorem pool_allocation_size (size : BitVec 64) (h : size.toNat + 39 < 2 ^ 64) :
    32 + size.toNat ≤ (allocation size).toNat ∧ (allocation size).toNat < 32 + size.toNat + 8 ∧
      8 ∣ (allocation size).toNat := by
  have e : allocation size = Memory.alignment (32 + size) 8 := by
    unfold allocation Memory.alignment
    congr 1
    bv_omega
  have e2 : (32 + size).toNat = 32 + size.toNat := by
    rw [BitVec.toNat_add]
    have : (32 : BitVec 64).toNat = 32 := rfl
    omega
  rw [e]
  have e8 : (8 : BitVec 64).toNat = 8 := rfl
  obtain ⟨⟨a, b⟩, c⟩ := Memory.memory_alignment_least (32 + size) 8 ⟨3, rfl⟩ (by rw [e2, e8]; omega)
  rw [e2] at b
  rw [e8] at a
  refine ⟨b, ?_, a⟩
  have := c ((32 + size.toNat + 7) / 8 * 8) ⟨by rw [e8]; exact Nat.dvd_mul_left _ _, by rw [e2]; omega⟩
  omega

example : allocation 100 = 136 := by decide

/-- Near the maximum the allocation size is too small for the link. -/
theorem pool_allocation_counterexample : allocation (BitVec.ofNat 64 (2 ^ 64 - 32)) = 0 := by decide

end Diminuto.Pool
