import Verif.ScatterGatherLemmas5

/-!
# Properties of Scatter/Gather (C73)
-/

namespace Diminuto.ScatterGather

variable {N : Nat}

/-- **C73 (refinement).** For any number of nodes, of which any are pools, and every history of calls that meets
what the calls require: nothing undefined happens; every call returns, puts out and takes in what is
specified; afterwards every buffer that is allocated is the buffer of exactly one segment, and
has its length and its bytes. -/
theorem scattergather_refines_partial (hN : N < 2 ^ 64) (pools : Fin N → Bool) (os : List (Op N)) (v : View N)
    (rs : List (Result N)) (h : View.Run (View.start pools) os v rs) :
    ∃ s, run (start N) os = some (s, rs) ∧
      (∀ b x, s.bufs b = some x ↔ ∃ n g, v.role n = .segment g ∧ g.address = b ∧ x.length.toNat = g.length ∧
        x.payload = g.payload) ∧
      ∀ n g n' g', v.role n = .segment g → v.role n' = .segment g' → g.address = g'.address → n = n' := by
  obtain ⟨s, e, i⟩ := run_inv hN os _ _ _ h _ (inv_start pools)
  refine ⟨s, e, ?_, i.mem.uniq⟩
  intro b x
  constructor
  · intro hb
    obtain ⟨n, g, h1, h2⟩ := i.mem.noleak b (by rw [hb]; simp)
    obtain ⟨-, h3, h4⟩ := i.mem.seg n g h1
    rw [h2, hb, Option.some.injEq] at h3
    exact ⟨n, g, h1, h2, by rw [h3]; exact fit_toNat h4, by rw [h3]; rfl⟩
  · rintro ⟨n, g, h1, rfl, h2, h3⟩
    obtain ⟨-, h4, h5⟩ := i.mem.seg n g h1
    rw [h4, Option.some.injEq]
    cases x with
    | mk l p =>
      simp only [Segment.buffer, Buffer.mk.injEq]
      simp only [] at h2 h3
      exact ⟨by rw [← h2]; simp, h3.symm⟩

/-- **C73 (nothing lost).** If at the end of a history no node is a segment then no buffer is
allocated. -/
theorem scattergather_no_leak (hN : N < 2 ^ 64) (pools : Fin N → Bool) (os : List (Op N)) (v : View N)
    (rs : List (Result N)) (h : View.Run (View.start pools) os v rs) (hs : ∀ n g, v.role n ≠ .segment g) :
    ∃ s, run (start N) os = some (s, rs) ∧ ∀ b, s.bufs b = none := by
  obtain ⟨s, e, h1, -⟩ := scattergather_refines_partial hN pools os v rs h
  refine ⟨s, e, fun b => ?_⟩
  cases hb : s.bufs b with
  | none => rfl
  | some x =>
    obtain ⟨n, g, h2, -⟩ := (h1 b x).1 hb
    exact absurd h2 (hs n g)

/-- **C73 (what comes in).** After bytes have come in for a record its content is those bytes, as many as
there is room for, and after them what was there before. -/
theorem scattergather_received (hN : N < 2 ^ 64) (pools : Fin N → Bool) (os : List (Op N)) (v : View N)
    (rs : List (Result N)) (h : View.Run (View.start pools) os v rs) (r : Fin N) (d : List Byte)
    (hr : v.role r = .record) :
    View.content { v with role := v.received r d } r =
      d.take (v.content r).length ++ (v.content r).drop d.length := by
  obtain ⟨s, e, i⟩ := run_inv hN os _ _ _ h _ (inv_start pools)
  exact received_content i r d hr

/-- **C73 (through a pipe).** After any history: what is written from one record and read into another of the
same size and written from there is the same, however either is divided into segments. -/
theorem scattergather_copy (hN : N < 2 ^ 64) (pools : Fin N → Bool) (os : List (Op N)) (v : View N)
    (rs : List (Result N)) (h : View.Run (View.start pools) os v rs) (r r' : Fin N) (hr : v.role r = .record)
    (hr' : v.role r' = .record) (hs : v.Sound r) (hs' : v.Sound r')
    (hl : (v.content r').length = (v.content r).length) :
    ∃ s, run (start N) (os ++ [.write r (some (v.content r).length), .read r' (some (v.content r)),
        .write r' (some (v.content r).length)]) =
      some (s, rs ++ [.io (v.content r).length (v.content r), .io (v.content r).length [],
        .io (v.content r).length (v.content r)]) := by
  obtain ⟨s, e, i⟩ := run_inv hN os _ _ _ h _ (inv_start pools)
  have hc := received_content i r' (v.content r) hr'
  rw [hl, List.take_length, ← hl, List.drop_length, List.append_nil] at hc
  have w1 : View.Step v (.write r (some (v.content r).length)) v _ := .write hr hs
  have w2 : View.Step v (.read r' (some (v.content r))) { v with role := v.received r' (v.content r) } _ := .read hr' hs'
  have w3 : View.Step { v with role := v.received r' (v.content r) } (.write r' (some (v.content r).length))
      { v with role := v.received r' (v.content r) } _ :=
    .write (by simp only [View.received, hr']) hs'
  rw [hc] at w3
  rw [hl] at w2
  simp only [Nat.min_self, List.take_length] at w1 w2 w3
  obtain ⟨s', e', -⟩ := run_inv hN _ _ _ _ (.cons w1 (.cons w2 (.cons w3 .nil))) s i
  refine ⟨s', ?_⟩
  rw [run_append, e]
  simp only [Option.bind_some, e', Option.map_some]

/-- Node 0 is a pool; nodes 1 to 5 are put in it; two records, of segments of 2 and 1 bytes and of 1
and 2 bytes; out of one and into the other; everything is freed, in the order of
the segments. -/
example : (run (start 7) [.put 0 1, .put 0 2, .put 0 3, .put 0 4, .put 0 5, .put 0 6, .recordAllocate 0,
      .segmentAllocate 0 2 (some (100, fun _ => 0x41)), .segmentAllocate 0 1 (some (200, fun _ => 0x42)),
      .append 1 2, .append 1 3, .enumerate 1, .measure 1, .write 1 (some 9), .recordAllocate 0,
      .segmentAllocate 0 1 (some (300, fun _ => 0)), .segmentAllocate 0 2 (some (400, fun _ => 0)),
      .prepend 4 6, .prepend 4 5, .read 4 (some [0x41, 0x41, 0x42]), .write 4 (some 2), .write 4 (some 3),
      .recordFree 0 4, .recordFree 0 1, .recordAllocate 0]).map (·.2) =
    some [.nothing, .nothing, .nothing, .nothing, .nothing, .nothing, .node (some 1), .node (some 2), .node (some 3),
      .node (some 2), .node (some 3), .size 2, .size 3, .io 3 [0x41, 0x41, 0x42], .node (some 4),
      .node (some 5), .node (some 6), .node (some 6), .node (some 5), .io 3 [], .io 2 [0x41, 0x41],
      .io 3 [0x41, 0x41, 0x42], .nothing, .nothing, .node (some 5)] := by
  decide +kernel

/-- The hypotheses are met by a history in which a segment is allocated, put on a record, taken off by being put on
another, and freed. -/
example : ∃ v rs, View.Run (View.start fun n : Fin 4 => n = 0)
    [.put 0 1, .put 0 2, .put 0 3, .recordAllocate 0, .recordAllocate 0, .segmentAllocate 0 4 (some (8, fun _ => 7)),
      .append 1 3, .append 2 3, .write 2 (some 3), .read 2 (some [1, 2]), .segmentFree 0 3] v rs := by
  refine ⟨_, _, .cons (.put (by decide) (by decide)) (.cons (.put (by decide) (by decide))
    (.cons (.put (by decide) (by decide)) (.cons (.recordAllocate (n := 1) (q := [2, 3]) (by decide) (by decide))
    (.cons (.recordAllocate (n := 2) (q := [3]) (by decide) (by decide))
    (.cons (.segmentAllocate (n := 3) (q := []) (by decide) (by decide) (by decide) (by
      intro n g h
      obtain ⟨n, hn⟩ := n
      match n, hn with
      | 0, _ => cases (show Role.pool = .segment g from h)
      | 1, _ => cases (show Role.record = .segment g from h)
      | 2, _ => cases (show Role.record = .segment g from h)
      | 3, _ => cases (show Role.spare = .segment g from h)))
    (.cons (.append (by decide) (by rfl) (by decide)) (.cons (.append (by decide) (by rfl) (by decide))
    (.cons (.write (by decide) (by unfold View.Sound; decide)) (.cons (.read (by decide) (by unfold View.Sound; decide))
    (.cons (.segmentFree (by decide) (by rfl)) .nil))))))))))⟩

/-- **C73, counterexample.** Failure is reported as `-1` by `diminuto_scattergather_record_write`, but as zero by
the functions that send and receive, if the record has no segments. -/
theorem scattergather_send_failure_counterexample :
    (run (start 2) [.put 0 1, .recordAllocate 0, .write 1 none, .read 1 none, .send 1 none, .receive 1 none]).map (·.2) =
      some [.nothing, .node (some 1), .io (-1) [], .io (-1) [], .io 0 [], .io 0 []] := by decide +kernel

/-- **C73, counterexample.** Appending a segment to a record of which it is the last one already takes it off the
record. -/
theorem scattergather_append_last_counterexample :
    (run (start 3) [.put 0 1, .put 0 2, .recordAllocate 0, .segmentAllocate 0 1 (some (0, fun _ => 0x41)), .append 1 2,
      .enumerate 1, .append 1 2, .enumerate 1]).map (·.2) =
      some [.nothing, .nothing, .node (some 1), .node (some 2), .node (some 2), .size 1, .node (some 2), .size 0] := by
  decide +kernel

/-- **C73, counterexample.** If the size asked for and the size of the header do not fit `size_t` then a segment is
allocated that has no room for its length, and writing it is undefined. -/
theorem scattergather_size_overflow_counterexample :
    (run (start 3) [.put 0 1, .put 0 2, .recordAllocate 0,
      .segmentAllocate 0 0xfffffffffffffffc (some (0, fun _ => 0x41)), .append 1 2, .measure 1]).map (·.2) =
      some [.nothing, .nothing, .node (some 1), .node (some 2), .node (some 2), .size 0xfffffffffffffffc] ∧
    run (start 3) [.put 0 1, .put 0 2, .recordAllocate 0,
      .segmentAllocate 0 0xfffffffffffffffc (some (0, fun _ => 0x41)), .append 1 2, .write 1 (some 1)] = none := by
  have h : ∀ {α β : Type} (o : Option (α × β)), o.isNone = true → o = none := by
    intro α β o ho
    cases o with
    | none => rfl
    | some _ => simp at ho
  exact ⟨by decide +kernel, h _ (by decide +kernel)⟩

/-- **C73, counterexample.** A node without a buffer on a record is passed over by
`diminuto_scattergather_record_measure`, but writing the record follows a null pointer. -/
theorem scattergather_null_segment_counterexample :
    (run (start 3) [.put 0 1, .put 0 2, .recordAllocate 0, .recordAllocate 0, .append 1 2, .measure 1]).map (·.2) =
      some [.nothing, .nothing, .node (some 1), .node (some 2), .node (some 2), .size 0] ∧
    run (start 3) [.put 0 1, .put 0 2, .recordAllocate 0, .recordAllocate 0, .append 1 2, .write 1 (some 1)] = none := by
  have h : ∀ {α β : Type} (o : Option (α × β)), o.isNone = true → o = none := by
    intro α β o ho
    cases o with
    | none => rfl
    | some _ => simp at ho
  exact ⟨by decide +kernel, h _ (by decide +kernel)⟩

end Diminuto.ScatterGather
