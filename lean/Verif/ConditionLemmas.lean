import Verif.ConditionSpec

/-!
# Lemmas for the Condition and the Mutex features
-/

namespace Diminuto.Condition
open Time (ticks2wholeseconds ticks2fractionalseconds)

theorem held_append (l : List (Call × Code)) (c : Call) (rc : Code) : held (l ++ [(c, rc)]) = held l + held [(c, rc)] := by
  induction l with
  | nil => simp [held]
  | cons a l ih =>
    obtain ⟨c', rc'⟩ := a
    cases c' <;> cases rc' <;> simp only [List.cons_append, held, ih] <;> omega

/-- How often the mutex is locked for a thread. -/
def share (th : Thread) : Int := held th.log - (if th.status = .active then 0 else 1)

/-- How often it is locked by a thread. -/
def level (owner : Option Nat) (depth t : Nat) : Int := if owner = some t then depth else 0

/-- What is true of every state. -/
structure Inv (x : Sys) : Prop where
  share : ∀ t, share (x.threads t) = level x.owner x.depth t
  depth : x.owner = none ↔ x.depth = 0
  asleep : ∀ t, InWait x t → 1 ≤ held (x.threads t).log

theorem inv_put {x : Sys} (hi : Inv x) (t : Nat) (th : Thread) (o : Option Nat) (d : Nat) (h1 : Condition.share th = level o d t) (h2 : ∀ u, u ≠ t → level o d u = level x.owner x.depth u) (h3 : o = none ↔ d = 0)
    (h4 : th.status ≠ .active → 1 ≤ held th.log) : Inv (x.put t th o d) where
  share u := by
    by_cases he : u = t
    · subst he; simpa [Sys.put] using h1
    · have := hi.share u
      rw [← h2 u he] at this
      simpa [Sys.put, he] using this
  depth := h3
  asleep u := by
    by_cases he : u = t
    · subst he; simpa [Sys.put, InWait] using h4
    · have := hi.asleep u
      simpa [Sys.put, he, InWait] using this

theorem share_wake (th : Thread) : share (wake th) = share th ∧ (wake th).log = th.log ∧ ((wake th).status = .active ↔ th.status = .active) := by
  obtain ⟨s, l⟩ := th
  cases s <;> simp [wake, share]

/-- The level of the owner when the mutex is unlocked once. -/
theorem level_release {x : Sys} (hi : Inv x) {t : Nat} (ho : x.owner = some t) :
    level (release t x.depth) (x.depth - 1) t = level x.owner x.depth t - 1 ∧ (∀ u, u ≠ t → level (release t x.depth) (x.depth - 1) u = level x.owner x.depth u) ∧
      (release t x.depth = none ↔ x.depth - 1 = 0) := by
  have hd : x.depth ≠ 0 := fun h => by have := hi.depth.mpr h; rw [ho] at this; cases this
  unfold release level
  rw [ho]
  by_cases h1 : x.depth = 1
  · rw [if_pos h1]
    refine ⟨?_, ?_, ?_⟩
    · simp; omega
    · intro u hu; simp; intro h; exact absurd h.symm hu
    · simp [h1]
  · rw [if_neg h1]
    refine ⟨?_, ?_, ?_⟩
    · simp; omega
    · intro u hu; simp [Ne.symm hu]
    · simp; omega

/-- And when it is locked once more. -/
theorem level_acquire {x : Sys} (hi : Inv x) {t : Nat} (ho : x.owner = none ∨ x.owner = some t) :
    level (some t) (x.depth + 1) t = level x.owner x.depth t + 1 ∧ (∀ u, u ≠ t → level (some t) (x.depth + 1) u = level x.owner x.depth u) := by
  unfold level
  rcases ho with ho | ho
  · have := hi.depth.mp ho
    rw [ho, this]
    refine ⟨by simp, fun u hu => by simp [Ne.symm hu]⟩
  · rw [ho]
    refine ⟨by simp, fun u hu => by simp [Ne.symm hu]⟩

theorem inv_step {x y : Sys} {e : Label} (hi : Inv x) (h : Step x e y) : Inv y := by
  have sh : ∀ t, share (x.threads t) = level x.owner x.depth t := hi.share
  cases h with
  | lock t log h ho =>
    obtain ⟨a1, a2⟩ := level_acquire hi ho
    have := sh t
    rw [h] at this
    refine inv_put hi t _ _ _ ?_ a2 (by simp) (by simp)
    rw [a1, ← this]; simp only [share, held_append]; simp [held]
  | attempt t log h ho =>
    obtain ⟨a1, a2⟩ := level_acquire hi ho
    have := sh t
    rw [h] at this
    refine inv_put hi t _ _ _ ?_ a2 (by simp) (by simp)
    rw [a1, ← this]; simp only [share, held_append]; simp [held]
  | busy t log h ho =>
    have := sh t
    rw [h] at this
    refine inv_put hi t _ _ _ ?_ (fun _ _ => rfl) hi.depth (by simp)
    rw [← this]; simp only [share, held_append]; simp [held]
  | unlock t log h ho =>
    obtain ⟨a1, a2, a3⟩ := level_release hi ho
    have := sh t
    rw [h] at this
    refine inv_put hi t _ _ _ ?_ a2 a3 (by simp)
    rw [a1, ← this]; simp only [share, held_append]; simp [held]; omega
  | unowned t log h ho =>
    have := sh t
    rw [h] at this
    refine inv_put hi t _ _ _ ?_ (fun _ _ => rfl) hi.depth (by simp)
    rw [← this]; simp only [share, held_append]; simp [held]
  | invalid t c s n log h hc hn =>
    have := sh t
    rw [h] at this
    refine inv_put hi t _ _ _ ?_ (fun _ _ => rfl) hi.depth (by simp)
    rw [← this]; simp only [share, held_append]; simp [held]
  | unlocked t c d log h hc hn ho =>
    have := sh t
    rw [h] at this
    refine inv_put hi t _ _ _ ?_ (fun _ _ => rfl) hi.depth (by simp)
    rw [← this]; simp only [share, held_append]; simp [held]
  | wait t c d log h hc hn ho =>
    obtain ⟨a1, a2, a3⟩ := level_release hi ho
    have := sh t
    rw [h] at this
    have hd : x.depth ≠ 0 := fun h => by have := hi.depth.mpr h; rw [ho] at this; cases this
    refine inv_put hi t _ _ _ ?_ a2 a3 (fun _ => ?_)
    · rw [a1, ← this]; simp [share]
    · simp only [share, level, ho] at this; simp at this; simp; omega
  | signal t log h =>
    refine ⟨fun u => ?_, hi.depth, fun u => ?_⟩
    · by_cases he : u = t
      · subst he
        have := sh u
        rw [h] at this
        simp only [if_true]
        rw [← this]; simp only [share, held_append]; simp [held]
      · simp only [he, if_false]
        rw [(share_wake _).1]; exact sh u
    · by_cases he : u = t
      · subst he; simp [InWait]
      · simp only [InWait, he, if_false]
        rw [(share_wake _).2.1]
        intro hw
        exact hi.asleep u (fun hh => hw ((share_wake _).2.2.mpr hh))
  | spurious t c d log h =>
    have := sh t
    rw [h] at this
    have ha := hi.asleep t
    rw [InWait, h] at ha
    refine inv_put hi t _ _ _ ?_ (fun _ _ => rfl) hi.depth (fun _ => ha (by simp))
    rw [← this]; simp [share]
  | timeout t c s n log h hn =>
    have := sh t
    rw [h] at this
    have ha := hi.asleep t
    rw [InWait, h] at ha
    refine inv_put hi t _ _ _ ?_ (fun _ _ => rfl) hi.depth (fun _ => ha (by simp))
    rw [← this]; simp [share]
  | resume t c rc log h ho =>
    obtain ⟨a1, a2⟩ := level_acquire hi ho
    have := sh t
    rw [h] at this
    refine inv_put hi t _ _ _ ?_ a2 (by simp) (by simp)
    rw [a1, ← this]; simp only [share, held_append]; simp [held]
  | clock now h => exact ⟨hi.share, hi.depth, hi.asleep⟩

theorem inv_reaches {now : Int} {x : Sys} (h : Reaches now x) : Inv x := by
  induction h with
  | initial => exact ⟨fun t => rfl, by simp [initial], fun t h => absurd rfl h⟩
  | step _ h ih => exact inv_step ih h

/-- A thread that holds the mutex and does not wait is its owner. -/
theorem owner_of_held {x : Sys} (hi : Inv x) {t : Nat} (ha : (x.threads t).status = .active) (hh : 0 < held (x.threads t).log) : x.owner = some t ∧ (x.depth : Int) = held (x.threads t).log := by
  have := hi.share t
  simp only [share, level, ha, if_true] at this
  by_cases ho : x.owner = some t
  · rw [if_pos ho] at this; exact ⟨ho, by omega⟩
  · rw [if_neg ho] at this; omega

/-- The owner is a thread that has the mutex, or one in a wait that has not unlocked it. -/
theorem owner_iff {x : Sys} (hi : Inv x) (t : Nat) : x.owner = some t ↔ Has x t ∨ (InWait x t ∧ 2 ≤ held (x.threads t).log) := by
  have hs := hi.share t
  have hd := hi.depth
  unfold Has InWait
  simp only [share, level] at hs
  constructor
  · intro ho
    have : x.depth ≠ 0 := fun h => by have := hd.mpr h; rw [ho] at this; cases this
    rw [if_pos ho] at hs
    by_cases ha : (x.threads t).status = .active
    · rw [if_pos ha] at hs; exact Or.inl ⟨by omega, fun h => h ha⟩
    · rw [if_neg ha] at hs; exact Or.inr ⟨ha, by omega⟩
  · intro h
    by_cases ho : x.owner = some t
    · exact ho
    · rw [if_neg ho] at hs
      rcases h with ⟨h1, h2⟩ | ⟨h1, h2⟩
      · have ha : (x.threads t).status = .active := Classical.not_not.mp h2
        rw [if_pos ha] at hs; omega
      · rw [if_neg h1] at hs; omega

/-- Threads that make no step. -/
theorem step_other {x y : Sys} {e : Label} (h : Step x e y) (u : Nat) :
    y.threads u = x.threads u ∨ y.threads u = wake (x.threads u) ∨ (∃ c rc, e = .did u c rc) ∨ (∃ c, e = .sleep u c) ∨ e = .stir u ∨ ∃ c rc, e = .resume u c rc := by
  have aux : ∀ (t : Nat) (th : Thread) (o : Option Nat) (d : Nat), u ≠ t → (x.put t th o d).threads u = x.threads u := by intro t th o d h; simp [Sys.put, h]
  cases h with
  | lock t log h ho => by_cases he : u = t; · subst he; exact Or.inr (Or.inr (Or.inl ⟨_, _, rfl⟩))
                       · exact Or.inl (aux _ _ _ _ he)
  | attempt t log h ho => by_cases he : u = t; · subst he; exact Or.inr (Or.inr (Or.inl ⟨_, _, rfl⟩))
                          · exact Or.inl (aux _ _ _ _ he)
  | busy t log h ho => by_cases he : u = t; · subst he; exact Or.inr (Or.inr (Or.inl ⟨_, _, rfl⟩))
                       · exact Or.inl (aux _ _ _ _ he)
  | unlock t log h ho => by_cases he : u = t; · subst he; exact Or.inr (Or.inr (Or.inl ⟨_, _, rfl⟩))
                         · exact Or.inl (aux _ _ _ _ he)
  | unowned t log h ho => by_cases he : u = t; · subst he; exact Or.inr (Or.inr (Or.inl ⟨_, _, rfl⟩))
                          · exact Or.inl (aux _ _ _ _ he)
  | invalid t c s n log h hc hn => by_cases he : u = t; · subst he; exact Or.inr (Or.inr (Or.inl ⟨_, _, rfl⟩))
                                   · exact Or.inl (aux _ _ _ _ he)
  | unlocked t c d log h hc hn ho => by_cases he : u = t; · subst he; exact Or.inr (Or.inr (Or.inl ⟨_, _, rfl⟩))
                                     · exact Or.inl (aux _ _ _ _ he)
  | wait t c d log h hc hn ho => by_cases he : u = t; · subst he; exact Or.inr (Or.inr (Or.inr (Or.inl ⟨_, rfl⟩)))
                                 · exact Or.inl (aux _ _ _ _ he)
  | signal t log h => by_cases he : u = t; · subst he; exact Or.inr (Or.inr (Or.inl ⟨_, _, rfl⟩))
                      · exact Or.inr (Or.inl (by simp [he]))
  | spurious t c d log h => by_cases he : u = t; · subst he; exact Or.inr (Or.inr (Or.inr (Or.inr (Or.inl rfl))))
                            · exact Or.inl (aux _ _ _ _ he)
  | timeout t c s n log h hn => by_cases he : u = t; · subst he; exact Or.inr (Or.inr (Or.inr (Or.inr (Or.inl rfl))))
                                · exact Or.inl (aux _ _ _ _ he)
  | resume t c rc log h ho => by_cases he : u = t; · subst he; exact Or.inr (Or.inr (Or.inr (Or.inr (Or.inr ⟨_, _, rfl⟩))))
                              · exact Or.inl (aux _ _ _ _ he)
  | clock now h => exact Or.inl rfl

/-- A wait that goes on with a mutex that is still locked: the mutex remains so. -/
theorem owner_step {x y : Sys} {e : Label} (h : Step x e y) {t : Nat} (ho : x.owner = some t) (hw : InWait x t) (hy : InWait y t) : y.owner = some t := by
  have key : ∀ {u : Nat} {log : List (Call × Code)}, x.threads u = ⟨.active, log⟩ → u ≠ t := by
    intro u log h he
    subst he
    rw [InWait, h] at hw; exact hw rfl
  have key2 : ∀ {u : Nat}, u ≠ t → ¬ (x.owner = none ∨ x.owner = some u) := by
    intro u hu h
    rw [ho] at h
    rcases h with h | h
    · cases h
    · injection h with h; exact hu h.symm
  cases h with
  | lock u log h ho' => exact absurd ho' (key2 (key h))
  | attempt u log h ho' => exact absurd ho' (key2 (key h))
  | busy u log h ho' => exact ho
  | unlock u log h ho' => exact absurd (Or.inr ho') (key2 (key h))
  | unowned u log h ho' => exact ho
  | invalid u c s n log h hc hn => exact ho
  | unlocked u c d log h hc hn ho' => exact ho
  | wait u c d log h hc hn ho' => exact absurd (Or.inr ho') (key2 (key h))
  | signal u log h => exact ho
  | spurious u c d log h => exact ho
  | timeout u c s n log h hn => exact ho
  | resume u c rc log h ho' =>
    by_cases he : u = t
    · subst he; simp [InWait, Sys.put] at hy
    · exact absurd ho' (key2 he)
  | clock now h => exact ho

/-- A time that has been reached. -/
def Reached (now : Int) (c : BitVec 64) : Prop := ∃ s n, later c = some (some (s, n)) ∧ s * 1000000000 + n ≤ now

/-- What is true of the times. -/
structure Timely (x : Sys) : Prop where
  waiting : ∀ t c d, (x.threads t).status = .waiting c d → later c = some d
  woken : ∀ t c rc, (x.threads t).status = .woken c rc → rc = .ok ∨ (rc = .timedout ∧ Reached x.now c)
  log : ∀ t c rc, (.wait c, rc) ∈ (x.threads t).log → rc = .timedout → Reached x.now c

theorem timely_put {x : Sys} (hi : Timely x) (t : Nat) (th : Thread) (o : Option Nat) (d : Nat) (h1 : ∀ c d, th.status = .waiting c d → later c = some d)
    (h2 : ∀ c rc, th.status = .woken c rc → rc = .ok ∨ (rc = .timedout ∧ Reached x.now c)) (h3 : ∀ c rc, (.wait c, rc) ∈ th.log → rc = .timedout → Reached x.now c) : Timely (x.put t th o d) where
  waiting u := by
    by_cases he : u = t
    · subst he; simpa [Sys.put] using h1
    · simpa [Sys.put, he] using hi.waiting u
  woken u := by
    by_cases he : u = t
    · subst he; simpa [Sys.put] using h2
    · simpa [Sys.put, he] using hi.woken u
  log u := by
    by_cases he : u = t
    · subst he; simpa [Sys.put] using h3
    · simpa [Sys.put, he] using hi.log u

theorem timely_step {x y : Sys} {e : Label} (hi : Timely x) (h : Step x e y) : Timely y := by
  have old : ∀ {t : Nat} {s : Status} {log : List (Call × Code)} (a : Call × Code), x.threads t = ⟨s, log⟩ → (∀ c rc, a = (.wait c, rc) → rc = .timedout → Reached x.now c) →
      ∀ c rc, (.wait c, rc) ∈ log ++ [a] → rc = .timedout → Reached x.now c := by
    intro t s log a h ha c rc hm
    rcases List.mem_append.mp hm with hm | hm
    · exact hi.log t c rc (by rw [h]; exact hm)
    · rw [List.mem_singleton] at hm; exact ha c rc hm.symm
  cases h with
  | lock t log h ho => exact timely_put hi t _ _ _ (by simp) (by simp) (old _ h (by simp))
  | attempt t log h ho => exact timely_put hi t _ _ _ (by simp) (by simp) (old _ h (by simp))
  | busy t log h ho => exact timely_put hi t _ _ _ (by simp) (by simp) (old _ h (by simp))
  | unlock t log h ho => exact timely_put hi t _ _ _ (by simp) (by simp) (old _ h (by simp))
  | unowned t log h ho => exact timely_put hi t _ _ _ (by simp) (by simp) (old _ h (by simp))
  | invalid t c s n log h hc hn => exact timely_put hi t _ _ _ (by simp) (by simp) (old _ h (by rintro c rc ⟨⟩ h; cases h))
  | unlocked t c d log h hc hn ho => exact timely_put hi t _ _ _ (by simp) (by simp) (old _ h (by rintro c rc ⟨⟩ h; cases h))
  | wait t c d log h hc hn ho =>
    refine timely_put hi t _ _ _ ?_ (by simp) (fun c rc hm => hi.log t c rc (by rw [h]; exact hm))
    rintro c d ⟨⟩; exact hc
  | signal t log h =>
    refine ⟨fun u c d hs => ?_, fun u c rc hs => ?_, fun u c rc hs => ?_⟩
    · by_cases he : u = t
      · subst he; simp at hs
      · simp only [he, if_false] at hs
        rcases hx : x.threads u with ⟨s, l⟩
        rw [hx] at hs
        cases s <;> simp [wake] at hs
    · by_cases he : u = t
      · subst he; simp at hs
      · simp only [he, if_false] at hs
        rcases hx : x.threads u with ⟨s, l⟩
        rw [hx] at hs
        cases s with
        | active => simp [wake] at hs
        | waiting c' d => simp [wake] at hs; exact Or.inl hs.2.symm
        | woken c' rc' => exact hi.woken u c rc (by rw [hx]; exact hs)
    · by_cases he : u = t
      · subst he; simp only [if_true] at hs; exact old _ h (by simp) c rc hs
      · simp only [he, if_false, (share_wake _).2.1] at hs
        exact hi.log u c rc hs
  | spurious t c d log h =>
    refine timely_put hi t _ _ _ (by simp) ?_ (fun c rc hm => hi.log t c rc (by rw [h]; exact hm))
    rintro c rc ⟨⟩; exact Or.inl rfl
  | timeout t c s n log h hn =>
    refine timely_put hi t _ _ _ (by simp) ?_ (fun c rc hm => hi.log t c rc (by rw [h]; exact hm))
    rintro c rc ⟨⟩; exact Or.inr ⟨rfl, s, n, hi.waiting t _ _ (by rw [h]), hn⟩
  | resume t c rc log h ho =>
    refine timely_put hi t _ _ _ (by simp) (by simp) (old _ h ?_)
    rintro c rc ⟨⟩ hr
    rcases hi.woken t _ _ (by rw [h]) with h' | h'
    · rw [hr] at h'; cases h'
    · exact h'.2
  | clock now h =>
    have mono : ∀ c, Reached x.now c → Reached now c := fun c ⟨s, n, h1, h2⟩ => ⟨s, n, h1, by omega⟩
    exact ⟨hi.waiting, fun t c rc hs => (hi.woken t c rc hs).imp id (fun ⟨h1, h2⟩ => ⟨h1, mono c h2⟩), fun t c rc hs hr => mono c (hi.log t c rc hs hr)⟩

theorem timely_reaches {now : Int} {x : Sys} (h : Reaches now x) : Timely x := by
  induction h with
  | initial => exact ⟨fun t c d h => (by simp [initial] at h), fun t c d h => (by simp [initial] at h), fun t c d h => by simp [initial] at h⟩
  | step _ h ih => exact timely_step ih h

/-- The seconds and nanoseconds of a time. -/
theorem later_eq (c : BitVec 64) (h : c ≠ 0xffffffffffffffff#64) : later c = some (some (c.toInt.tdiv 1000000000, c.toInt.tmod 1000000000)) := by
  rw [later, if_neg h]
  have h1 := BitVec.le_toInt c
  have h2 := BitVec.toInt_lt (x := c)
  have hd : Time.div? c.toInt 1000000000 = some (c.toInt.tdiv 1000000000) := by
    have hn : (c.toInt.tdiv 1000000000).natAbs = c.toInt.natAbs / 1000000000 := Int.natAbs_tdiv ..
    rw [Time.div?, if_neg (by decide), Time.chk, if_pos]
    omega
  have e1 : ticks2wholeseconds c.toInt = some (c.toInt.tdiv 1000000000) := by
    have : Time.div? Time.frequency 1 = some 1000000000 := by decide
    rw [ticks2wholeseconds, Time.ticks2units, if_neg (by decide), if_pos (by decide), this]
    exact hd
  have e2 : ticks2fractionalseconds c.toInt 1000000000 = some (c.toInt.tmod 1000000000) := by
    have : Time.mod? c.toInt Time.frequency = some (c.toInt.tmod 1000000000) := by
      show (Time.div? c.toInt 1000000000).map _ = _
      rw [hd]; rfl
    rw [ticks2fractionalseconds, this]
    rfl
  rw [e1, e2]; rfl

/-! ## The handoff -/

/-- Where a thread has the mutex, and does not wait. -/
def critical : Pc → Bool
  | .look | .unset | .seen | .raise | .notify | .leave => true
  | _ => false

/-- What is true of a thread. -/
def Agrees (p : Pc) (th : Thread) : Prop :=
  if p = .asleep then th.status ≠ .active ∧ held th.log = 1 else th.status = .active ∧ held th.log = if critical p then 1 else 0

/-- What is true of every state. -/
structure Handoff.Inv (x : Handoff) : Prop where
  sys : Condition.Inv x.sys
  agrees : ∀ t, Agrees (x.pc t) (x.sys.threads t)
  unset : ∀ t, x.pc t = .unset → x.flag = false
  set : ∀ t, x.pc t = .seen ∨ x.pc t = .done ∨ x.pc t = .notify ∨ x.pc t = .leave ∨ x.pc t = .finished → x.flag = true
  woken : x.flag = true → ∀ t c d, (x.sys.threads t).status = .waiting c d → ∃ u, x.pc u = .notify

theorem critical_owner {x : Handoff} (hi : x.Inv) {t : Nat} (h : critical (x.pc t) = true) : x.sys.owner = some t := by
  have ha := hi.agrees t
  have hne : x.pc t ≠ .asleep := by intro he; rw [he] at h; cases h
  rw [Agrees, if_neg hne, h] at ha
  exact (owner_of_held hi.sys ha.1 (by rw [ha.2]; decide)).1

theorem critical_unique {x : Handoff} (hi : x.Inv) {t u : Nat} (ht : critical (x.pc t) = true) (hu : critical (x.pc u) = true) : t = u := by
  have h1 := critical_owner hi ht
  rw [critical_owner hi hu] at h1
  injection h1 with h1; exact h1.symm

theorem agrees_wake {p : Pc} {th : Thread} (h : Agrees p th) : Agrees p (wake th) := by
  obtain ⟨-, h2, h3⟩ := share_wake th
  unfold Agrees at h ⊢
  by_cases hp : p = .asleep
  · rw [if_pos hp] at h ⊢; rw [h2]; exact ⟨fun he => h.1 (h3.mp he), h.2⟩
  · rw [if_neg hp] at h ⊢; rw [h2]; exact ⟨h3.mpr h.1, h.2⟩

theorem wake_not_waiting (th : Thread) (c : BitVec 64) (d : Option (Int × Int)) : (wake th).status ≠ .waiting c d := by
  obtain ⟨s, l⟩ := th
  cases s <;> simp [wake]

/-- A step of one thread: all that has to be shown of the new state. -/
theorem handoff_put {x : Handoff} (hi : x.Inv) (t : Nat) (th : Thread) (o : Option Nat) (d : Nat) (p : Pc) (hs : Condition.Inv (x.sys.put t th o d)) (ha : Agrees p th)
    (hu : p = .unset → x.flag = false) (hs' : p = .seen ∨ p = .done ∨ p = .notify ∨ p = .leave ∨ p = .finished → x.flag = true)
    (hw : x.flag = true → (∀ c d, th.status ≠ .waiting c d) ∧ x.pc t ≠ .notify) : Handoff.Inv ⟨x.sys.put t th o d, goto x.pc t p, x.flag⟩ where
  sys := hs
  agrees u := by
    by_cases he : u = t
    · subst he; simpa [Sys.put, goto] using ha
    · simpa [Sys.put, goto, he] using hi.agrees u
  unset u := by
    by_cases he : u = t
    · subst he; simpa [goto] using hu
    · simpa [goto, he] using hi.unset u
  set u := by
    by_cases he : u = t
    · subst he; simpa [goto] using hs'
    · simpa [goto, he] using hi.set u
  woken hf u c d hs := by
    obtain ⟨h1, h2⟩ := hw hf
    by_cases he : u = t
    · subst he; exact absurd (by simpa [Sys.put] using hs) (h1 c d)
    · obtain ⟨v, hv⟩ := hi.woken hf u c d (by simpa [Sys.put, he] using hs)
      refine ⟨v, ?_⟩
      by_cases hv' : v = t
      · subst hv'; exact absurd hv h2
      · simpa [goto, hv'] using hv

theorem handoff_step {x y : Handoff} (hi : x.Inv) (h : Handoff.Step x y) : y.Inv := by
  cases h with
  | lock t y h hs =>
    have hsys := inv_step hi.sys hs
    have ha := hi.agrees t
    rw [h] at ha
    cases hs with
    | lock _ log h' ho =>
      rw [h'] at ha
      refine handoff_put hi t _ _ _ .look hsys ?_ (by simp) (by simp) (by simp [h])
      have : held log = 0 := ha.2
      simp [Agrees, critical, held_append, this, held]
  | look t h =>
    have ha := hi.agrees t
    rw [h] at ha
    refine ⟨hi.sys, fun u => ?_, fun u hu => ?_, fun u hu => ?_, fun hf u c d hs => ?_⟩
    · by_cases he : u = t
      · subst he
        show Agrees (goto x.pc u _ u) _
        rw [goto, if_pos rfl]
        cases x.flag <;> exact ha
      · simpa [goto, he] using hi.agrees u
    · by_cases he : u = t
      · subst he
        cases hf : x.flag with
        | false => rfl
        | true => simp [goto, hf] at hu
      · exact hi.unset u (by simpa [goto, he] using hu)
    · by_cases he : u = t
      · subst he
        cases hf : x.flag with
        | false => simp [goto, hf] at hu
        | true => rfl
      · exact hi.set u (by simpa [goto, he] using hu)
    · obtain ⟨v, hv⟩ := hi.woken hf u c d hs
      refine ⟨v, ?_⟩
      by_cases hv' : v = t
      · subst hv'; rw [h] at hv; cases hv
      · simpa [goto, hv'] using hv
  | sleep t y h hs =>
    have hsys := inv_step hi.sys hs
    have ha := hi.agrees t
    have hf := hi.unset t h
    rw [h] at ha
    cases hs with
    | wait _ _ d log h' hc hn ho =>
      rw [h'] at ha
      refine handoff_put hi t _ _ _ .asleep hsys ?_ (by simp) (by simp) (by simp [hf])
      exact ⟨by simp, ha.2⟩
  | stir t y hs =>
    have hsys := inv_step hi.sys hs
    have ha := hi.agrees t
    have hp : ∀ {s : Status}, s ≠ .active → (x.sys.threads t).status = s → x.pc t = .asleep := by
      intro s hs he
      rw [Agrees] at ha
      by_cases hp : x.pc t = .asleep
      · exact hp
      · rw [if_neg hp, he] at ha; exact absurd ha.1 hs
    have hg : goto x.pc t .asleep = x.pc ∨ x.pc t ≠ .asleep := by
      by_cases hp : x.pc t = .asleep
      · left; funext u; unfold goto; split
        · rename_i he; rw [he, hp]
        · rfl
      · exact Or.inr hp
    cases hs with
    | spurious _ c d log h' =>
      have hpc := hp (s := .waiting c d) (by simp) (by rw [h'])
      rcases hg with hg | hg
      · have := handoff_put hi t ⟨.woken c .ok, log⟩ x.sys.owner x.sys.depth .asleep hsys (by rw [hpc, h'] at ha; exact ⟨by simp, ha.2⟩) (by simp) (by simp) (by simp [hpc])
        rwa [hg] at this
      · exact absurd hpc hg
    | timeout _ c s n log h' hn =>
      have hpc := hp (s := .waiting c (some (s, n))) (by simp) (by rw [h'])
      rcases hg with hg | hg
      · have := handoff_put hi t ⟨.woken c .timedout, log⟩ x.sys.owner x.sys.depth .asleep hsys (by rw [hpc, h'] at ha; exact ⟨by simp, ha.2⟩) (by simp) (by simp) (by simp [hpc])
        rwa [hg] at this
      · exact absurd hpc hg
  | resume t c rc y h hs =>
    have hsys := inv_step hi.sys hs
    have ha := hi.agrees t
    rw [h] at ha
    cases hs with
    | resume _ _ _ log h' ho =>
      rw [h'] at ha
      refine handoff_put hi t _ _ _ .look hsys ?_ (by simp) (by simp) (by simp [h])
      have : held log = 1 := ha.2
      simp [Agrees, critical, held_append, this, held]
  | unlock t y rc h hs =>
    have hsys := inv_step hi.sys hs
    have ha := hi.agrees t
    have ho := critical_owner hi (t := t) (by rw [h]; rfl)
    have hf := hi.set t (Or.inl h)
    rw [h] at ha
    cases hs with
    | unlock _ log h' _ =>
      rw [h'] at ha
      refine handoff_put hi t _ _ _ .done hsys ?_ (by simp) (fun _ => hf) (by simp [h])
      have : held log = 1 := ha.2
      simp [Agrees, critical, held_append, this, held]
    | unowned _ log h' ho' => exact absurd ho ho'
  | prepare t y h hs =>
    have hsys := inv_step hi.sys hs
    have ha := hi.agrees t
    rw [h] at ha
    cases hs with
    | lock _ log h' ho =>
      rw [h'] at ha
      refine handoff_put hi t _ _ _ .raise hsys ?_ (by simp) (by simp) (by simp [h])
      have : held log = 0 := ha.2
      simp [Agrees, critical, held_append, this, held]
  | raise t h =>
    have ha := hi.agrees t
    rw [h] at ha
    refine ⟨hi.sys, fun u => ?_, fun u hu => ?_, fun u hu => rfl, fun hf u c d hs => ⟨t, by simp [goto]⟩⟩
    · by_cases he : u = t
      · subst he
        show Agrees (goto x.pc u _ u) _
        rw [goto, if_pos rfl]
        exact ha
      · simpa [goto, he] using hi.agrees u
    · by_cases he : u = t
      · subst he; simp [goto] at hu
      · have hu : x.pc u = .unset := by simpa [goto, he] using hu
        exact absurd (critical_unique hi (t := u) (u := t) (by rw [hu]; rfl) (by rw [h]; rfl)) he
  | notify t y rc h hs =>
    have hsys := inv_step hi.sys hs
    have ha := hi.agrees t
    have hf := hi.set t (Or.inr (Or.inr (Or.inl h)))
    rw [h] at ha
    cases hs with
    | signal _ log h' =>
      rw [h'] at ha
      refine ⟨hsys, fun u => ?_, fun u hu => ?_, fun u hu => hf, fun _ u c d hs => ?_⟩
      · by_cases he : u = t
        · subst he
          have : held log = 1 := ha.2
          simp [goto, Agrees, critical, held_append, this, held]
        · simpa [goto, he] using agrees_wake (hi.agrees u)
      · by_cases he : u = t
        · subst he; simp [goto] at hu
        · exact hi.unset u (by simpa [goto, he] using hu)
      · by_cases he : u = t
        · subst he; simp at hs
        · exact absurd (by simpa [he] using hs) (wake_not_waiting (x.sys.threads u) c d)
  | leave t y rc h hs =>
    have hsys := inv_step hi.sys hs
    have ha := hi.agrees t
    have ho := critical_owner hi (t := t) (by rw [h]; rfl)
    have hf := hi.set t (Or.inr (Or.inr (Or.inr (Or.inl h))))
    rw [h] at ha
    cases hs with
    | unlock _ log h' _ =>
      rw [h'] at ha
      refine handoff_put hi t _ _ _ .finished hsys ?_ (by simp) (fun _ => hf) (by simp [h])
      have : held log = 1 := ha.2
      simp [Agrees, critical, held_append, this, held]
    | unowned _ log h' ho' => exact absurd ho ho'

theorem handoff_reaches {now : Int} {sets : Nat → Bool} {x : Handoff} (h : Handoff.Reaches now sets x) : x.Inv := by
  induction h with
  | initial =>
    refine ⟨inv_reaches .initial, fun t => ?_, fun t h => rfl, fun t h => ?_, fun h => by cases h⟩
    · show Agrees (if sets t then .prepare else .begin) ⟨.active, []⟩
      cases sets t <;> simp [Agrees, critical, held]
    · have h : (fun p : Pc => p = .seen ∨ p = .done ∨ p = .notify ∨ p = .leave ∨ p = .finished) (if sets t then .prepare else .begin) := h
      cases hs : sets t <;> simp [hs] at h
  | step _ h ih => exact handoff_step ih h

end Diminuto.Condition
