import Verif.ThrottleGet
import Verif.ThrottleGetSpec

/-!
# Property C182: what throttles and shapers say about themselves
-/

namespace Diminuto.Throttle

theorem alarming_nil : ¬ Alarming [] := by
  rintro ⟨a, f, b, h, _⟩
  cases a <;> simp at h

theorem alarming_snoc (seen : List (Bool × Bool)) (x : Bool × Bool) : Alarming (seen ++ [x]) ↔ (x.2 = true ∧ x.1 = false) ∨ (x.1 = false ∧ Alarming seen) := by
  constructor
  · rintro ⟨a, f, b, h, h2, h1, hb⟩
    rcases List.eq_nil_or_concat b with rfl | ⟨b', y, rfl⟩
    · have : x = f := by
        have := congrArg List.getLast? h
        simpa using this
      subst this
      exact Or.inl ⟨h2, h1⟩
    · rw [List.concat_eq_append, ← List.cons_append, ← List.append_assoc] at h
      obtain ⟨e1, e2⟩ := List.append_inj' h rfl
      cases e2
      exact Or.inr ⟨hb _ (by simp), a, f, b', e1, h2, h1, fun z hz => hb z (by simp [hz])⟩
  · rintro (h | ⟨hx, a, f, b, rfl, h2, h1, hb⟩)
    · exact ⟨seen, x, [], rfl, h.1, h.2, by simp⟩
    · refine ⟨a, f, b ++ [x], by simp, h2, h1, ?_⟩
      intro z hz
      rcases List.mem_append.mp hz with hz | hz
      · exact hb z hz
      · rw [List.mem_singleton.mp hz]; exact hx

/-- What holds of a throttle after any calls. -/
structure Kept (s : Throttle) (seen : List (Bool × Bool)) : Prop where
  alarm : s.alarmed1 = true ↔ Alarming seen
  full : s.full1 = true → s.alarmed1 = true
  empty : s.empty1 = true → s.alarmed1 = false
  either0 : s.full0 = true → s.empty0 = false

theorem kept_reset (s : Throttle) (now : Ticks) : Kept (reset s now) [] :=
  ⟨⟨fun h => (nomatch h), fun h => absurd h alarming_nil⟩, fun h => (nomatch h), fun _ => rfl, fun h => (nomatch h)⟩

theorem kept_request (s : Throttle) (now : Ticks) (seen : List (Bool × Bool)) (h : Kept s seen) : Kept (request s now).2 seen := by
  obtain ⟨h1, h2, h3, _⟩ := h
  unfold request
  simp only []
  split
  · exact ⟨h1, h2, h3, fun h => (nomatch h)⟩
  · split
    · exact ⟨h1, h2, h3, fun h => (nomatch h)⟩
    · exact ⟨h1, h2, h3, fun _ => rfl⟩

theorem commit_fields (s : Throttle) (events : Ticks) :
    (commitn s events).2.full1 = s.full0 ∧ (commitn s events).2.full2 = s.full1 ∧ (commitn s events).2.empty1 = s.empty0 ∧ (commitn s events).2.empty2 = s.empty1 ∧ (commitn s events).2.alarmed2 = s.alarmed1 ∧
    (commitn s events).2.full0 = s.full0 ∧ (commitn s events).2.empty0 = s.empty0 ∧ (commitn s events).1 = (commitn s events).2.alarmed1 ∧
    (commitn s events).2.alarmed1 = (if s.empty0 && !s.empty1 then false else if s.full0 && !s.full1 then true else s.alarmed1) ∧
    (commitn s events).2.then_ = s.now ∧ (commitn s events).2.expected = s.actual + events * s.increment := by
  unfold commitn emptied filled
  simp only []
  cases s.empty0 <;> cases s.empty1 <;> cases s.full0 <;> cases s.full1 <;> simp

theorem kept_commit (s : Throttle) (events : Ticks) (seen : List (Bool × Bool)) (h : Kept s seen) :
    Kept (commitn s events).2 (seen ++ [(isEmpty (commitn s events).2, isFull (commitn s events).2)]) := by
  obtain ⟨h1, h2, h3, h4⟩ := h
  obtain ⟨e1, e2, e3, e4, e5, e6, e7, e8, e9, _⟩ := commit_fields s events
  constructor
  · rw [alarming_snoc, ← h1, e9]
    unfold isEmpty isFull
    simp only [e1, e3]
    revert h2 h3 h4
    cases s.empty0 <;> cases s.empty1 <;> cases s.full0 <;> cases s.full1 <;> cases s.alarmed1 <;> simp
  · rw [e1, e9]
    revert h2 h3 h4
    cases s.empty0 <;> cases s.empty1 <;> cases s.full0 <;> cases s.full1 <;> cases s.alarmed1 <;> simp
  · rw [e3, e9]
    revert h2 h3 h4
    cases s.empty0 <;> cases s.empty1 <;> cases s.full0 <;> cases s.full1 <;> cases s.alarmed1 <;> simp
  · rw [e6, e7]
    exact h4

theorem kept_watch (os : List Op) : ∀ (s : Throttle) (seen : List (Bool × Bool)), Kept s seen → Kept (watch s seen os).1 (watch s seen os).2 := by
  induction os with
  | nil => exact fun _ _ h => h
  | cons o os ih =>
    intro s seen h
    cases o with
    | reset now => exact ih _ _ (kept_reset s now)
    | request now => exact ih _ _ (kept_request s now seen h)
    | commit events => exact ih _ _ (kept_commit s events seen h)

/-- C182: after any calls, in any order, a throttle says that it is alarmed exactly if after some commit since the last reset it said that it was full, and after none since that it was empty. -/
theorem alarmed_exact (s : Throttle) (increment limit now : Ticks) (os : List Op) :
    isAlarmed (watch (init s increment limit now) [] os).1 = true ↔ Alarming (watch (init s increment limit now) [] os).2 :=
  (kept_watch os _ _ (kept_reset _ now)).alarm

/-- C182: after any calls a throttle that says that it is full says that it is alarmed, and one that says that it is empty says that it is not. -/
theorem full_alarmed (s : Throttle) (increment limit now : Ticks) (os : List Op) :
    (isFull (watch (init s increment limit now) [] os).1 = true → isAlarmed (watch (init s increment limit now) [] os).1 = true) ∧
    (isEmpty (watch (init s increment limit now) [] os).1 = true → isAlarmed (watch (init s increment limit now) [] os).1 = false) :=
  have h := kept_watch os _ _ (kept_reset { s with increment := increment, limit := limit } now)
  ⟨h.full, h.empty⟩

/-- C182: a throttle says that it has just become empty, full, alarmed or cleared exactly if by the last commit it did, and a request changes nothing of what it says. -/
theorem transitions (s : Throttle) (events now : Ticks) :
    (emptied (commitn s events).2 = true ↔ Became (isEmpty s) (isEmpty (commitn s events).2)) ∧
    (filled (commitn s events).2 = true ↔ Became (isFull s) (isFull (commitn s events).2)) ∧
    (alarmed (commitn s events).2 = true ↔ Became (isAlarmed s) (isAlarmed (commitn s events).2)) ∧
    (cleared (commitn s events).2 = true ↔ Became (isAlarmed (commitn s events).2) (isAlarmed s)) ∧
    (commitn s events).1 = isAlarmed (commitn s events).2 ∧
    ([isEmpty, isFull, isAlarmed, emptied, filled, alarmed, cleared].map (fun f => f (request s now).2) = [isEmpty, isFull, isAlarmed, emptied, filled, alarmed, cleared].map (fun f => f s)) := by
  obtain ⟨e1, e2, e3, e4, e5, _, _, e8, _⟩ := commit_fields s events
  unfold emptied filled alarmed cleared isEmpty isFull isAlarmed Became
  rw [e2, e4, e5]
  refine ⟨by simp [and_comm], by simp [and_comm], by simp [and_comm], by simp, e8, ?_⟩
  unfold request
  simp only []
  split
  · rfl
  · split <;> rfl

/-- C182: after a reset a throttle is what a new one with its increment and limit is, whatever it has been; it says that it is empty, not full and not alarmed, and that nothing has just changed, and an event is admissible at once and at any later time. -/
theorem reset_forgets (s t : Throttle) (now later : Ticks) :
    reset s now = init t s.increment s.limit now ∧
    [isEmpty, isFull, isAlarmed, emptied, filled, alarmed, cleared].map (fun f => f (reset s now)) = [true, false, false, false, false, false, false] ∧
    (request (reset s now) later).1 = 0 := by
  refine ⟨rfl, rfl, ?_⟩
  unfold request reset
  simp only []
  rw [if_pos (by simp [BitVec.le_def])]

/-- C182: that a throttle is full after a request and a commit is that the request asked for a delay. -/
theorem full_delays (s : Throttle) (now events : Ticks) : isFull (commitn (request s now).2 events).2 = true ↔ (request s now).1 ≠ 0 := by
  unfold isFull
  rw [(commit_fields _ events).1]
  unfold request
  simp only []
  split
  · simp
  · split
    · simp
    · rename_i h
      simp only [ne_eq, true_iff]
      intro e
      apply h
      rw [BitVec.le_def]
      rw [← BitVec.toNat_inj, BitVec.toNat_sub] at e
      rw [show (0 : Ticks).toNat = 0 from rfl] at e
      have h1 := (s.expected - (now - s.then_)).isLt
      have h2 := s.limit.isLt
      omega

/-- A throttle that was committed at some time is empty some time after exactly if this is what it expects. -/
theorem empty_after (s : Throttle) (t d n m : Ticks) : isEmpty (commitn (request (commitn (request s t).2 n).2 (t + d)).2 m).2 = true ↔ getExpected (commitn (request s t).2 n).2 ≤ d := by
  have ht : (commitn (request s t).2 n).2.then_ = t := by
    rw [(commit_fields _ n).2.2.2.2.2.2.2.2.2.1]
    unfold request
    simp only []
    split
    · rfl
    · split <;> rfl
  unfold isEmpty getExpected
  rw [(commit_fields _ m).2.2.1]
  generalize (commitn (request s t).2 n).2 = u at ht ⊢
  have he : t + d - u.then_ = d := by
    rw [ht]
    apply BitVec.eq_of_toNat_eq
    simp only [BitVec.toNat_sub, BitVec.toNat_add]
    have := t.isLt
    have := d.isLt
    omega
  unfold request
  simp only [he]
  split
  · rename_i h; simp [h]
  · rename_i h
    split <;> simp [h]

/-- C182: what a shaper, or a throttle, says that it expects is the least time after which an event relies on no limit: some time after a commit the bucket is found empty exactly if this time is not less. -/
theorem expected_exact (s : Shaper) (t d n m : Ticks) :
    shaperIsEmpty (shaperCommitn (shaperRequest (shaperCommitn (shaperRequest s t).2 n).2 (t + d)).2 m).2 = true ↔ shaperGetExpected (shaperCommitn (shaperRequest s t).2 n).2 ≤ d := by
  have hp := empty_after s.peak t d n m
  have hs := empty_after s.sustained t d n m
  have e1 : shaperIsEmpty (shaperCommitn (shaperRequest (shaperCommitn (shaperRequest s t).2 n).2 (t + d)).2 m).2 =
    (isEmpty (commitn (request (commitn (request s.peak t).2 n).2 (t + d)).2 m).2 && isEmpty (commitn (request (commitn (request s.sustained t).2 n).2 (t + d)).2 m).2) := rfl
  have e2 : shaperGetExpected (shaperCommitn (shaperRequest s t).2 n).2 = if getExpected (commitn (request s.peak t).2 n).2 > getExpected (commitn (request s.sustained t).2 n).2 then getExpected (commitn (request s.peak t).2 n).2 else getExpected (commitn (request s.sustained t).2 n).2 := rfl
  rw [e1, e2, Bool.and_eq_true, hp, hs]
  generalize getExpected (commitn (request s.peak t).2 n).2 = a
  generalize getExpected (commitn (request s.sustained t).2 n).2 = b
  simp only [gt_iff_lt, BitVec.lt_def, BitVec.le_def]
  split <;> constructor <;> intro h <;> omega

/-- C182, in part: if by the last commit a shaper became empty, full, alarmed or cleared it says so; and if it says that it has just become full or alarmed it is.  Missing is the converse, which is false: `shaper_counterexample`. -/
theorem shaper_transitions_partial (s : Shaper) (events : Ticks) :
    (Became (shaperIsEmpty s) (shaperIsEmpty (shaperCommitn s events).2) → shaperEmptied (shaperCommitn s events).2 = true) ∧
    (Became (shaperIsFull s) (shaperIsFull (shaperCommitn s events).2) → shaperFilled (shaperCommitn s events).2 = true) ∧
    (Became (shaperIsAlarmed s) (shaperIsAlarmed (shaperCommitn s events).2) → shaperAlarmed (shaperCommitn s events).2 = true) ∧
    (Became (shaperIsAlarmed (shaperCommitn s events).2) (shaperIsAlarmed s) → shaperCleared (shaperCommitn s events).2 = true) ∧
    (shaperFilled (shaperCommitn s events).2 = true → shaperIsFull (shaperCommitn s events).2 = true) ∧
    (shaperAlarmed (shaperCommitn s events).2 = true → shaperIsAlarmed (shaperCommitn s events).2 = true) ∧
    (shaperCleared (shaperCommitn s events).2 = true → shaperIsAlarmed s = true) ∧
    (shaperCommitn s events).1 = shaperIsAlarmed (shaperCommitn s events).2 := by
  obtain ⟨p1, p2, p3, p4, p5, _⟩ := transitions s.peak events 0
  obtain ⟨q1, q2, q3, q4, q5, _⟩ := transitions s.sustained events 0
  have hr : (shaperCommitn s events).1 = ((commitn s.peak events).1 || (commitn s.sustained events).1) := rfl
  have hp : (shaperCommitn s events).2.peak = (commitn s.peak events).2 := rfl
  have hq : (shaperCommitn s events).2.sustained = (commitn s.sustained events).2 := rfl
  unfold shaperEmptied shaperFilled shaperAlarmed shaperCleared shaperIsEmpty shaperIsFull shaperIsAlarmed
  rw [hr, p5, q5, hp, hq]
  simp only [Bool.or_eq_true, p1, p2, p3, p4, q1, q2, q3, q4]
  unfold Became
  generalize isEmpty s.peak = a1
  generalize isEmpty s.sustained = a2
  generalize isFull s.peak = a3
  generalize isFull s.sustained = a4
  generalize isAlarmed s.peak = a5
  generalize isAlarmed s.sustained = a6
  generalize isEmpty (commitn s.peak events).2 = b1
  generalize isEmpty (commitn s.sustained events).2 = b2
  generalize isFull (commitn s.peak events).2 = b3
  generalize isFull (commitn s.sustained events).2 = b4
  generalize isAlarmed (commitn s.peak events).2 = b5
  generalize isAlarmed (commitn s.sustained events).2 = b6
  refine ⟨?_, ?_, ?_, ?_, ?_, ?_, ?_, trivial⟩
  · cases a1 <;> cases a2 <;> cases b1 <;> cases b2 <;> simp
  · cases a3 <;> cases a4 <;> cases b3 <;> cases b4 <;> simp
  · cases a5 <;> cases a6 <;> cases b5 <;> cases b6 <;> simp
  · cases a5 <;> cases a6 <;> cases b5 <;> cases b6 <;> simp
  · cases a3 <;> cases a4 <;> cases b3 <;> cases b4 <;> simp
  · cases a5 <;> cases a6 <;> cases b5 <;> cases b6 <;> simp
  · cases a5 <;> cases a6 <;> cases b5 <;> cases b6 <;> simp

/-- C182: after a reset a shaper says that it is empty, not full and not alarmed, and that nothing has just changed, and an event is admissible at once and at any later time. -/
theorem shaper_reset (s : Shaper) (now later : Ticks) :
    [shaperIsEmpty, shaperIsFull, shaperIsAlarmed, shaperEmptied, shaperFilled, shaperAlarmed, shaperCleared].map (fun f => f (shaperReset s now)) = [true, false, false, false, false, false, false] ∧
    shaperGetExpected (shaperReset s now) = 0 ∧ (shaperRequest (shaperReset s now) later).1 = 0 := by
  refine ⟨rfl, rfl, ?_⟩
  have h1 := (reset_forgets s.peak s.peak now later).2.2
  have h2 := (reset_forgets s.sustained s.sustained now later).2.2
  have : (shaperRequest (shaperReset s now) later).1 = if (request (reset s.peak now) later).1 > (request (reset s.sustained now) later).1 then (request (reset s.peak now) later).1 else (request (reset s.sustained now) later).1 := rfl
  rw [this, h1, h2]
  rfl

/-- A new shaper with these increments and limits. -/
def exampleShaper (pi jt si bt : Ticks) : Shaper :=
  let blank : Throttle := ⟨0, 0, 0, 0, 0, 0, false, false, false, false, false, false, false, false⟩
  shaperInit ⟨blank, blank⟩ pi jt si bt 0

/-- Three events at once fill a bucket of increment ten; 45 ticks after the beginning it is empty; in between it is alarmed. -/
example : let s := (exampleShaper 10 0 10 0).peak
    let f := fun os => (watch s [] os).2
    f [.request 0, .commit 3, .request 5, .commit 1, .request 32, .commit 0, .request 45, .commit 0] = [(true, false), (false, true), (false, true), (true, false)] ∧
    isAlarmed (watch s [] [.request 0, .commit 3, .request 5, .commit 1]).1 = true ∧ isAlarmed (watch s [] [.request 0, .commit 3, .request 5, .commit 1, .request 45, .commit 0]).1 = false := by
  decide

/-- C182, false of shapers: one says that it has just become empty and is not, that its alarm has just been cleared and is alarmed, and that it has just become full and alarmed although it was so before. -/
theorem shaper_counterexample :
    let s := exampleShaper 10 0 100 0
    let s1 := (shaperAdmitn (shaperAdmitn s 0 1).2 5 0).2
    let s2 := (shaperAdmitn s1 10 0).2
    let r := exampleShaper 10 0 100 100
    let r2 := (shaperAdmitn (shaperAdmitn r 0 1).2 5 1).2
    let r3 := (shaperAdmitn r2 6 0).2
    (shaperEmptied s2 = true ∧ shaperIsEmpty s2 = false ∧ shaperCleared s2 = true ∧ shaperIsAlarmed s2 = true) ∧
    shaperIsFull r2 = true ∧ shaperIsAlarmed r2 = true ∧ shaperFilled r3 = true ∧ shaperAlarmed r3 = true := by
  decide +kernel

end Diminuto.Throttle
