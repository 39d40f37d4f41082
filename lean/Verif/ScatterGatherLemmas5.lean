import Verif.ScatterGatherLemmas4

/-!
# Lemmas: the content of a record
-/

namespace Diminuto.ScatterGather

variable {N : Nat}

theorem run_append (os os' : List (Op N)) : ∀ s : State N,
    run s (os ++ os') = (run s os).bind fun (s, rs) => (run s os').map fun (s, rs') => (s, rs ++ rs') := by
  induction os with
  | nil => intro s; simp [run]
  | cons o os ih =>
    intro s
    simp only [List.cons_append, run]
    cases step s o with
    | none => rfl
    | some x =>
      obtain ⟨s1, r⟩ := x
      simp only [Option.bind_some, ih]
      cases run s1 os with
      | none => rfl
      | some y =>
        obtain ⟨s2, rs⟩ := y
        simp only [Option.bind_some, Option.map_some, Option.map_map]
        cases run s2 os' <;> rfl

theorem receive_data (g : Segment) (off : Nat) (d : List Byte) (hf : g.Fit) :
    (g.receive off d).payload.take g.length =
      (d.drop off).take g.length ++ (g.payload.take g.length).drop (d.length - off) := by
  have h0 := receive_zero g hf (d.drop off)
  rw [← receive_shift, Nat.add_zero] at h0
  rw [h0, List.take_append, List.take_take, Nat.min_self, List.length_take, List.length_drop, List.drop_take]
  congr 1
  by_cases h : g.length ≤ d.length - off
  · rw [Nat.min_eq_left h]
    simp
    omega
  · rw [Nat.min_eq_right (by omega)]

theorem content_receivedIn (role : Fin N → Role) (l : List (Fin N)) : ∀ (d : List Byte), l.Nodup →
    (∀ n ∈ l, ∃ g, role n = .segment g ∧ g.Fit) →
    l.flatMap (dataOf (receivedIn role l d)) =
      d.take (l.flatMap (dataOf role)).length ++ (l.flatMap (dataOf role)).drop d.length := by
  induction l with
  | nil => intro d _ _; simp
  | cons x l ih =>
    intro d hnd hl
    rw [List.nodup_cons] at hnd
    obtain ⟨g, hg, hf⟩ := hl x (by simp)
    have hlen : (dataOf role x).length = g.length := by
      rw [dataOf_segment hg, List.length_take, Nat.min_eq_left hf.1]
    have h1 : dataOf (receivedIn role (x :: l) d) x = d.take g.length ++ (dataOf role x).drop d.length := by
      have : receivedIn role (x :: l) d x = .segment (g.receive 0 d) := by
        unfold receivedIn
        simp [hg, before]
      rw [dataOf_segment this, dataOf_segment hg]
      have := receive_data g 0 d hf
      simpa [Segment.receive] using this
    have h2 : l.flatMap (dataOf (receivedIn role (x :: l) d)) = l.flatMap (dataOf (receivedIn role l (d.drop g.length))) := by
      apply List.flatMap_congr
      intro n hn
      have hne : x ≠ n := by rintro rfl; exact hnd.1 hn
      obtain ⟨g', hg', -⟩ := hl n (by simp [hn])
      have e1 : receivedIn role (x :: l) d n = receivedIn role l (d.drop g.length) n := by
        unfold receivedIn
        rw [hg']
        simp only []
        rw [if_pos (by simp [hn]), if_pos hn, before, if_neg hne, List.flatMap_cons, List.length_append, hlen,
          receive_shift]
      unfold dataOf
      rw [e1]
    rw [List.flatMap_cons, h1, h2, ih (d.drop g.length) hnd.2 (fun n hn => hl n (by simp [hn])), List.flatMap_cons,
      List.length_append, hlen, List.drop_append, hlen, List.length_drop]
    by_cases h : d.length ≤ g.length
    · rw [List.drop_of_length_le h, List.take_of_length_le h]
      have e : d.length - g.length = 0 := by omega
      rw [e, List.take_of_length_le (by omega : d.length ≤ g.length + (l.flatMap (dataOf role)).length)]
      simp
    · have e : (dataOf role x).drop d.length = [] := by
        apply List.drop_of_length_le
        omega
      rw [e, List.take_add]
      simp

theorem received_content {s : State N} {v : View N} (hi : Inv s v) (r : Fin N) (d : List Byte) (hr : v.role r = .record) :
    View.content { v with role := v.received r d } r =
      d.take (v.content r).length ++ (v.content r).drop d.length := by
  have := content_receivedIn v.role (v.queue r) d (List.nodup_cons.1 (hi.holds.nodup r)).2 (fun n hn => by
    obtain ⟨g, hg⟩ := hi.roles.segments hr n hn
    exact ⟨g, hg, (hi.mem.seg n g hg).2.2⟩)
  exact this

end Diminuto.ScatterGather
