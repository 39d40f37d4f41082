import Verif.PoolSpec

/-!
# Lemmas: the Pool
-/

namespace Diminuto.Pool

open Diminuto.DList Diminuto.Well

variable {N : Nat}

/-- What holds between state and specification. -/
structure Inv (kind : Fin N → Kind) (s : State N) (v : View N) : Prop where
  rep : ∃ A, Rep s.heap A ∧ (∀ p, kind p = .pool → p :: v.queue p ∈ A) ∧
    ∀ n, kind n = .object → v.owner n = none → [n] ∈ A
  queues : ∀ p, kind p ≠ .pool → v.queue p = []
  owned : ∀ p, ∀ n ∈ v.queue p, v.owner n = some p
  data : ∀ n p, v.owner n = some p → s.data n = p ∧ kind p = .pool ∧ kind n = .object
  live : ∀ n, s.live n = (v.owner n).isSome

theorem inv_start (kind : Fin N → Kind) : Inv kind (start N) (View.start N) where
  rep := ⟨specFresh N, fresh_rep N, fun p _ => by simp [View.start, specFresh],
    fun n _ _ => by simp [specFresh]⟩
  queues _ _ := rfl
  owned _ _ h := by simp [View.start] at h
  data _ _ h := by simp [View.start] at h
  live _ := rfl

theorem pool_ring_ne {A : Rings N} {h : Heap N} (hR : Rep h A) {p p' : Fin N} {l l' : List (Fin N)}
    (hl : p :: l ∈ A) (hl' : p' :: l' ∈ A) (hne : p ≠ p') {x : Fin N} (hx : x ∈ p :: l) : x ∉ p' :: l' :=
  disjoint_lists hR hl hl' (fun he => hne (by simpa using (List.cons.inj he).1)) hx

theorem step_inv (kind : Fin N → Kind) (s : State N) (v : View N) (hi : Inv kind s v) (o : Op N) (v' : View N)
    (r : Option (Fin N)) (h : View.Step kind v o v' r) :
    ∃ s', step s o = some (s', r) ∧ Inv kind s' v' := by
  obtain ⟨⟨A, hR, hpool, hdead⟩, hqs, hown, hdata, hlive⟩ := hi
  cases h with
  | @take p n q m hp hq =>
    have hl := hpool p hp
    rw [hq] at hl
    obtain ⟨f1, f2, f3, f4⟩ := not_empty_of hR hl
    obtain ⟨h1, e1, hR1⟩ := remove_rep s.heap A n hR
    refine ⟨{ s with heap := h1 }, ?_, ?_⟩
    · simp only [step, alloc, f4]
      rw [if_neg (by simp [f1]), f2]
      simp only [List.head?_cons, Option.getD_some]
      rw [e1]
      rfl
    · obtain ⟨m1, m2⟩ := specRemove_head hR hl
      refine ⟨⟨_, hR1, ?_, ?_⟩, ?_, ?_, hdata, hlive⟩
      · intro p' hp'
        simp only []
        by_cases he : p' = p
        · subst he
          rw [if_pos rfl]
          exact m1
        · rw [if_neg he]
          have hl' := hpool p' hp'
          exact ringOf_specRemove hR n hl' (pool_ring_ne hR hl hl' (fun h => he h.symm) (by simp))
      · intro n' hk ho
        have hn' := hdead n' hk ho
        apply ringOf_specRemove hR n hn'
        simp only [List.mem_singleton]
        rintro rfl
        have := hown p n (by rw [hq]; simp)
        rw [ho] at this
        simp at this
      · intro p' hp'
        simp only []
        rw [if_neg (by rintro rfl; exact hp' hp)]
        exact hqs p' hp'
      · intro p' n' hn'
        simp only [] at hn'
        by_cases he : p' = p
        · subst he
          rw [if_pos rfl] at hn'
          exact hown p' n' (by rw [hq]; exact List.mem_cons_of_mem _ hn')
        · rw [if_neg he] at hn'
          exact hown p' n' hn'
  | @fail p hp hq =>
    have hl := hpool p hp
    rw [hq] at hl
    obtain ⟨f1, f2, f3, f4⟩ := not_empty_of hR hl
    refine ⟨s, ?_, ⟨A, hR, hpool, hdead⟩, hqs, hown, hdata, hlive⟩
    simp only [step, alloc, f4]
    rw [if_pos (f1.2 rfl)]
  | @grow p n hp hq hk ho =>
    have hl := hpool p hp
    rw [hq] at hl
    obtain ⟨f1, f2, f3, f4⟩ := not_empty_of hR hl
    have hlv : ¬ s.live n = true := by rw [hlive, ho]; simp
    refine ⟨{ heap := DList.init s.heap n
              data := fun x => if x = n then p else s.data x
              live := fun x => if x = n then true else s.live x }, ?_, ?_⟩
    · simp only [step, alloc, f4]
      rw [if_pos (f1.2 rfl)]
      rw [if_neg hlv]
    · refine ⟨⟨A, ?_, hpool, ?_⟩, hqs, ?_, ?_, ?_⟩
      · simp only []
        rw [init_single hR (hdead n hk ho)]
        exact hR
      · intro n' hk' ho'
        simp only [] at ho'
        split at ho'
        · simp at ho'
        · exact hdead n' hk' ho'
      · intro p' n' hn'
        simp only [] at hn' ⊢
        have := hown p' n' hn'
        rw [if_neg (by rintro rfl; rw [ho] at this; simp at this)]
        exact this
      · intro n' p' ho'
        simp only [] at ho' ⊢
        by_cases he : n' = n
        · subst he
          simp only [if_true, Option.some.injEq] at ho' ⊢
          exact ⟨ho', ho' ▸ hp, hk⟩
        · rw [if_neg he] at ho' ⊢
          exact hdata n' p' ho'
      · intro n'
        simp only []
        by_cases he : n' = n
        · simp [he]
        · simp [he, hlive]
  | @free p n ho hh =>
    obtain ⟨d1, d2, d3⟩ := hdata n p ho
    have hl := hpool p d2
    obtain ⟨f1, f2, f3, f4⟩ := not_empty_of hR hl
    obtain ⟨h1, e1, hR1⟩ := insert_rep s.heap A ((p :: v.queue p).getLast (by simp)) n hR
    have hnl : ∀ p', kind p' = .pool → n ∉ p' :: v.queue p' := by
      intro p' hp'
      simp only [List.mem_cons, not_or]
      exact ⟨by rintro rfl; rw [d3] at hp'; simp at hp', hh.2 p'⟩
    refine ⟨{ s with heap := h1 }, ?_, ?_⟩
    · simp only [step, free, d1, f4, f3, e1, Option.map_some]
    · refine ⟨⟨_, hR1, ?_, ?_⟩, ?_, ?_, hdata, hlive⟩
      · intro p' hp'
        simp only []
        by_cases he : p' = p
        · subst he
          rw [if_pos rfl]
          have := mem_specInsert hR ((p' :: v.queue p').getLast (by simp)) n hl (List.getLast_mem _) (hnl p' d2)
          rwa [insertAfter_last p' n _ (hR.1 _ hl).1] at this
        · rw [if_neg he]
          have hl' := hpool p' hp'
          exact specInsert_other hR _ _ hl'
            (pool_ring_ne hR hl hl' (fun h => he h.symm) (List.getLast_mem _)) (hnl p' hp')
      · intro n' hk ho'
        have hn' := hdead n' hk ho'
        apply specInsert_other hR _ _ hn'
        · apply disjoint_lists hR hl hn' _ (List.getLast_mem _)
          intro he
          have : p = n' := (List.cons.inj he).1
          rw [← this, d2] at hk
          simp at hk
        · simp only [List.mem_singleton]
          rintro rfl
          rw [ho] at ho'
          simp at ho'
      · intro p' hp'
        simp only []
        rw [if_neg (by rintro rfl; exact hp' d2)]
        exact hqs p' hp'
      · intro p' n' hn'
        simp only [] at hn'
        by_cases he : p' = p
        · subst he
          rw [if_pos rfl, List.mem_append] at hn'
          rcases hn' with hn' | hn'
          · exact hown p' n' hn'
          · simp only [List.mem_singleton] at hn'
            subst hn'
            exact ho
        · rw [if_neg he] at hn'
          exact hown p' n' hn'
  | @fini p hp =>
    have hl := hpool p hp
    obtain ⟨f1, f2, f3, f4⟩ := not_empty_of hR hl
    -- the loop, by induction on the queue
    have key : ∀ (q : List (Fin N)) (fuel : Nat) (s : State N) (A : Rings N), q.length < fuel → Rep s.heap A →
        p :: q ∈ A → (∀ n ∈ q, s.live n = true) →
        ∃ s' A', finiLoop p fuel s = some s' ∧ Rep s'.heap A' ∧ s'.data = s.data ∧ [p] ∈ A' ∧
          (∀ n ∈ q, [n] ∈ A') ∧ (∀ l ∈ A, (∀ n ∈ p :: q, n ∉ l) → l ∈ A') ∧
          ∀ n, s'.live n = (if n ∈ q then false else s.live n) := by
      intro q
      induction q with
      | nil =>
        intro fuel s A hf hR hl _
        obtain ⟨fuel, rfl⟩ : ∃ k, fuel = k + 1 := ⟨fuel - 1, by simp at hf; omega⟩
        obtain ⟨f1, -, -, -⟩ := not_empty_of hR hl
        refine ⟨s, A, ?_, hR, rfl, hl, by simp, fun l hl _ => hl, by simp⟩
        unfold finiLoop
        rw [if_neg (by simp [f1])]
      | cons n q ih =>
        intro fuel s A hf hR hl hlv
        obtain ⟨fuel, rfl⟩ : ∃ k, fuel = k + 1 := ⟨fuel - 1, by simp at hf; omega⟩
        obtain ⟨f1, f2, -, -⟩ := not_empty_of hR hl
        obtain ⟨h1, e1, hR1⟩ := remove_rep s.heap A n hR
        obtain ⟨m1, m2⟩ := specRemove_head hR hl
        have hnd := (hR.1 _ hl).1
        simp only [List.nodup_cons, List.mem_cons, not_or] at hnd
        have hnx : s.heap.next p = n := by rw [f2]; rfl
        obtain ⟨s', A', i1, i2, i3, i4, i5, i6, i7⟩ := ih fuel
          { heap := h1, data := s.data, live := fun x => if x = n then false else s.live x } _
          (by simp at hf; omega) hR1 m1 (fun x hx => by
            simp only []
            rw [if_neg (by rintro rfl; exact hnd.2.1 hx)]
            exact hlv x (by simp [hx]))
        refine ⟨s', A', ?_, i2, i3, i4, ?_, ?_, ?_⟩
        · unfold finiLoop
          rw [if_pos (by simp [f1]), hnx]
          simp only []
          rw [e1, Option.bind_some]
          unfold heapFree
          simp only []
          rw [if_pos (hlv n (by simp)), Option.bind_some]
          exact i1
        · intro x hx
          rcases List.mem_cons.1 hx with rfl | hx
          · apply i6 _ m2
            intro y hy
            simp only [List.mem_singleton]
            rintro rfl
            rcases List.mem_cons.1 hy with hy | hy
            · exact hnd.1.1 hy.symm
            · exact hnd.2.1 hy
          · exact i5 x hx
        · intro l hl' hdis
          apply i6 l (ringOf_specRemove hR n hl' (hdis n (by simp)))
          intro y hy
          apply hdis y
          rcases List.mem_cons.1 hy with hy | hy
          · simp [hy]
          · simp [hy]
        · intro x
          rw [i7]
          simp only [List.mem_cons]
          by_cases h1 : x = n <;> by_cases h2 : x ∈ q <;> simp [h1, h2]
    have hlen : (v.queue p).length < N + 1 := by
      have := nodup_length_le _ (hR.1 _ hl).1
      simp at this
      omega
    obtain ⟨s', A', i1, i2, i3, i4, i5, i6, i7⟩ := key (v.queue p) (N + 1) s A hlen hR hl (fun n hn => by
      rw [hlive, hown p n hn]
      rfl)
    refine ⟨s', ?_, ⟨A', i2, ?_, ?_⟩, ?_, ?_, ?_, ?_⟩
    · simp only [step, fini, f4, i1, Option.map_some]
    · intro p' hp'
      simp only []
      by_cases he : p' = p
      · subst he
        rw [if_pos rfl]
        exact i4
      · rw [if_neg he]
        have hl' := hpool p' hp'
        exact i6 _ hl' fun n hn => pool_ring_ne hR hl hl' (fun h => he h.symm) hn
    · intro n hk ho
      simp only [] at ho
      by_cases hm : n ∈ v.queue p
      · exact i5 n hm
      · rw [if_neg hm] at ho
        apply i6 _ (hdead n hk ho)
        intro x hx
        simp only [List.mem_singleton]
        rintro rfl
        rcases List.mem_cons.1 hx with rfl | hx
        · rw [hp] at hk
          simp at hk
        · exact hm hx
    · intro p' hp'
      simp only []
      split
      · rfl
      · exact hqs p' hp'
    · intro p' n hn
      simp only [] at hn ⊢
      by_cases he : p' = p
      · rw [if_pos he] at hn
        simp at hn
      · rw [if_neg he] at hn
        have h1 := hown p' n hn
        rw [if_neg]
        · exact h1
        · intro h2
          have := hown p n h2
          rw [h1] at this
          exact he (Option.some.inj this)
    · intro n p' ho
      simp only [] at ho
      split at ho
      · simp at ho
      · rw [i3]
        exact hdata n p' ho
    · intro n
      rw [i7, hlive]
      simp only []
      split <;> rfl
  | @link r n hr hh =>
    obtain ⟨h1, e1, hR1⟩ := insert_rep s.heap A r n hR
    obtain ⟨p, ho⟩ := Option.ne_none_iff_exists'.1 hh.1
    obtain ⟨d1, d2, d3⟩ := hdata n p ho
    have hnl : ∀ p', kind p' = .pool → n ∉ p' :: v.queue p' := by
      intro p' hp'
      simp only [List.mem_cons, not_or]
      exact ⟨by rintro rfl; rw [d3] at hp'; simp at hp', hh.2 p'⟩
    have hrl : ∀ p', kind p' = .pool → r ∉ p' :: v.queue p' := by
      intro p' hp'
      simp only [List.mem_cons, not_or]
      rcases hr with hr | hr
      · refine ⟨by rintro rfl; rw [hr] at hp'; simp at hp', fun hm => ?_⟩
        have := (hdata r p' (hown p' r hm)).2.2
        rw [hr] at this
        simp at this
      · obtain ⟨p2, ho2⟩ := Option.ne_none_iff_exists'.1 hr.1
        have d := (hdata r p2 ho2).2.2
        exact ⟨by rintro rfl; rw [d] at hp'; simp at hp', hr.2 p'⟩
    refine ⟨{ s with heap := h1 }, by simp only [step, e1, Option.map_some], ⟨_, hR1, ?_, ?_⟩, hqs, hown, hdata, hlive⟩
    · intro p' hp'
      exact specInsert_other hR _ _ (hpool p' hp') (hrl p' hp') (hnl p' hp')
    · intro n' hk ho'
      apply specInsert_other hR _ _ (hdead n' hk ho')
      · simp only [List.mem_singleton]
        rintro rfl
        rcases hr with hr | hr
        · rw [hr] at hk
          simp at hk
        · exact hr.1 ho'
      · simp only [List.mem_singleton]
        rintro rfl
        exact hh.1 ho'

theorem run_inv (kind : Fin N → Kind) (os : List (Op N)) (v v' : View N) (rs : List (Option (Fin N)))
    (h : View.Run kind v os v' rs) : ∀ s, Inv kind s v → ∃ s', run s os = some (s', rs) ∧ Inv kind s' v' := by
  induction h with
  | nil => exact fun s hi => ⟨s, rfl, hi⟩
  | cons hs _ ih =>
    intro s hi
    obtain ⟨s1, e1, i1⟩ := step_inv kind s _ hi _ _ _ hs
    obtain ⟨s2, e2, i2⟩ := ih s1 i1
    exact ⟨s2, by simp only [run, e1, Option.bind_some, e2, Option.map_some], i2⟩

end Diminuto.Pool
