import Verif.ConditionLemmas

/-!
# The Condition and the Mutex features
-/

namespace Diminuto.Condition

/-- C116.  At most one thread has the mutex. -/
theorem condition_exclusive (now : Int) (x : Sys) (h : Reaches now x) (t u : Nat) (ht : Has x t) (hu : Has x u) : t = u := by
  have hi := inv_reaches h
  have h1 := (owner_iff hi t).mpr (Or.inl ht)
  rw [(owner_iff hi u).mpr (Or.inl hu)] at h1
  injection h1 with h1; exact h1.symm

/-- C116.  A thread that unlocks the mutex or waits without having it is refused, and only such a one; one that tries to lock it fails exactly if another thread has it (or is in a wait that has not unlocked it);
in each case it goes on at once, and the mutex is not changed. -/
theorem condition_results (now : Int) (x y : Sys) (h : Reaches now x) (t : Nat) (c : Call) (rc : Code) (hs : Step x (.did t c rc) y) :
    (c = .unlock → (rc = .ok ∨ rc = .perm) ∧ (rc = .ok ↔ Has x t)) ∧
    (c = .attempt → (rc = .ok ∨ rc = .busy) ∧ (rc = .busy ↔ ∃ u, u ≠ t ∧ (Has x u ∨ (InWait x u ∧ 2 ≤ held (x.threads u).log)))) ∧
    (∀ k, c = .wait k → rc = .inval ∨ (rc = .perm ∧ ¬ Has x t)) ∧ (c = .lock ∨ c = .signal → rc = .ok) ∧ (rc ≠ .ok → y.owner = x.owner ∧ y.depth = x.depth) := by
  have hi := inv_reaches h
  have hown : ∀ {log : List (Call × Code)}, x.threads t = ⟨.active, log⟩ → (x.owner = some t ↔ Has x t) := by
    intro log hl
    rw [owner_iff hi t]
    constructor
    · rintro (h | h)
      · exact h
      · exact absurd (by rw [hl]) h.1
    · exact Or.inl
  have hother : (∃ u, u ≠ t ∧ (Has x u ∨ (InWait x u ∧ 2 ≤ held (x.threads u).log))) ↔ ¬ (x.owner = none ∨ x.owner = some t) := by
    constructor
    · rintro ⟨u, hu, hh⟩ ho
      rw [(owner_iff hi u).mpr hh] at ho
      rcases ho with ho | ho
      · cases ho
      · injection ho with ho; exact hu ho
    · intro ho
      cases hx : x.owner with
      | none => exact absurd (Or.inl hx) ho
      | some u => exact ⟨u, fun he => ho (Or.inr (by rw [hx, he])), (owner_iff hi u).mp hx⟩
  cases hs with
  | lock _ log h ho => simp
  | attempt _ log h ho => simp only [hother]; simp [ho]
  | busy _ log h ho => simp only [hother]; simp [ho, Sys.put]
  | unlock _ log h ho => simp [(hown h).mp ho]
  | unowned _ log h ho => simp [Sys.put]; exact fun hh => ho ((hown h).mpr hh)
  | invalid _ k s n log h hc hn => simp [Sys.put]
  | unlocked _ k d log h hc hn ho => simp [Sys.put]; exact fun hh => ho ((hown h).mpr hh)
  | signal _ log h => simp

/-- C116.  A wait is begun by a thread that has the mutex, and when it is over the thread has it as often as before; nothing else than zero and ETIMEDOUT is returned, and the latter only if the time has come. -/
theorem condition_wait (now : Int) (x y : Sys) (h : Reaches now x) (t : Nat) (c : BitVec 64) :
    (Step x (.sleep t c) y → Has x t ∧ InWait y t ∧ (y.threads t).log = (x.threads t).log) ∧
    ∀ rc, Step x (.resume t c rc) y → Has y t ∧ (y.threads t).log = (x.threads t).log ++ [(.wait c, rc)] ∧ held (y.threads t).log = held (x.threads t).log ∧
      (y.depth : Int) = held (y.threads t).log ∧ (rc = .ok ∨ (rc = .timedout ∧ ∃ s n, later c = some (some (s, n)) ∧ s * 1000000000 + n ≤ x.now)) := by
  have hi := inv_reaches h
  constructor
  · intro hs
    cases hs with
    | wait _ _ d log h' hc hn ho =>
      refine ⟨((owner_iff hi t).mp ho).elim id (fun h => absurd (by rw [h']) h.1), ?_, ?_⟩
      · simp [InWait, Sys.put]
      · simp [Sys.put, h']
  · intro rc hs
    have hi' := inv_step hi hs
    have ht := (timely_reaches h).woken t c rc
    cases hs with
    | resume _ _ _ log h' ho =>
      have ha := hi.asleep t (by simp [InWait, h'])
      rw [h'] at ha
      have e1 : ((x.put t ⟨.active, log ++ [(.wait c, rc)]⟩ (some t) (x.depth + 1)).threads t) = ⟨.active, log ++ [(.wait c, rc)]⟩ := by simp [Sys.put]
      have e2 : held (log ++ [(.wait c, rc)]) = held log := by rw [held_append]; simp [held]
      have e3 : Has (x.put t ⟨.active, log ++ [(.wait c, rc)]⟩ (some t) (x.depth + 1)) t := by
        rw [Has, InWait, e1]
        refine ⟨?_, fun h => h rfl⟩
        show 0 < held (log ++ [(.wait c, rc)])
        rw [e2]; exact Int.lt_of_lt_of_le (by decide) ha
      refine ⟨e3, by rw [e1, h'], by rw [e1, h']; exact e2, ?_, ht (by rw [h'])⟩
      exact (owner_of_held hi' (by rw [e1]) (by rw [e1]; exact (by rw [e2]; exact Int.lt_of_lt_of_le (by decide) ha))).2

/-- C116.  A signal wakes all the threads that wait. -/
theorem condition_broadcast (x y : Sys) (t : Nat) (rc : Code) (hs : Step x (.did t .signal rc) y) (u : Nat) (c : BitVec 64) (d : Option (Int × Int)) :
    (y.threads u).status ≠ .waiting c d ∧ ((x.threads u).status = .waiting c d → (y.threads u).status = .woken c .ok) := by
  cases hs with
  | signal _ log h =>
    by_cases he : u = t
    · subst he; simp [h]
    · simp only [he, if_false]
      refine ⟨wake_not_waiting _ c d, fun hw => ?_⟩
      rcases hx : x.threads u with ⟨s, l⟩
      rw [hx] at hw
      simp only at hw
      subst hw
      rfl

/-- C116.  No signal is lost: when the variable has been set, and the thread that did so has signalled, then no thread waits for a signal any more, and no thread goes on before the variable has been set.  Any number of
threads wait, and any number set it. -/
theorem condition_handoff (now : Int) (sets : Nat → Bool) (x : Handoff) (h : Handoff.Reaches now sets x) :
    (x.flag = true → (∀ u, x.pc u ≠ .notify) → ∀ t c d, (x.sys.threads t).status ≠ .waiting c d) ∧ (∀ t, x.pc t = .done → x.flag = true) := by
  have hi := handoff_reaches h
  refine ⟨fun hf hn t c d hs => ?_, fun t ht => hi.set t (Or.inr (Or.inl ht))⟩
  obtain ⟨u, hu⟩ := hi.woken hf t c d hs
  exact hn u hu

/-- C116.  And when the variable has been set, as long as there is a thread that has not come to its end there is a step in which one of them goes on, without any thread being woken by chance. -/
theorem condition_handoff_progress (now : Int) (sets : Nat → Bool) (x : Handoff) (h : Handoff.Reaches now sets x) (hf : x.flag = true) (t : Nat) (ht : x.pc t ≠ .done ∧ x.pc t ≠ .finished) :
    ∃ y, Handoff.Step x y ∧ y.pc ≠ x.pc := by
  have hi := handoff_reaches h
  have ne : ∀ (u : Nat) (p q : Pc), x.pc u = q → q ≠ p → goto x.pc u p ≠ x.pc := by
    intro u p q hq hn he
    have := congrFun he u
    rw [goto, if_pos rfl, hq] at this
    exact hn this.symm
  have go : ∀ u, critical (x.pc u) = true → ∃ y, Handoff.Step x y ∧ y.pc ≠ x.pc := by
    intro u hu
    have ho := critical_owner hi hu
    have ha := hi.agrees u
    have hne : x.pc u ≠ .asleep := by intro he; rw [he] at hu; cases hu
    rw [Agrees, if_neg hne] at ha
    rcases hx : x.sys.threads u with ⟨s, log⟩
    rw [hx] at ha
    have hs : s = .active := ha.1
    subst hs
    cases hp : x.pc u with
    | look => exact ⟨_, .look u hp, ne u _ _ hp (by cases x.flag <;> decide)⟩
    | unset => have := hi.unset u hp; rw [hf] at this; cases this
    | seen => exact ⟨_, .unlock u _ _ hp (.unlock u log hx ho), ne u _ _ hp (by decide)⟩
    | raise => exact ⟨_, .raise u hp, ne u _ _ hp (by decide)⟩
    | notify => exact ⟨_, .notify u _ _ hp (.signal u log hx), ne u _ _ hp (by decide)⟩
    | leave => exact ⟨_, .leave u _ _ hp (.unlock u log hx ho), ne u _ _ hp (by decide)⟩
    | begin => rw [hp] at hu; cases hu
    | asleep => rw [hp] at hu; cases hu
    | done => rw [hp] at hu; cases hu
    | prepare => rw [hp] at hu; cases hu
    | finished => rw [hp] at hu; cases hu
  cases ho : x.sys.owner with
  | some u =>
    refine go u ?_
    have ha := hi.agrees u
    rcases (owner_iff hi.sys u).mp ho with h1 | h1
    · have hne : x.pc u ≠ .asleep := by intro he; rw [he] at ha; exact h1.2 ha.1
      rw [Agrees, if_neg hne] at ha
      cases hc : critical (x.pc u) with
      | true => rfl
      | false => rw [hc] at ha; have := h1.1; rw [ha.2] at this; exact absurd this (by decide)
    · unfold Agrees at ha
      split at ha
      · rw [ha.2] at h1; exact absurd h1.2 (by decide)
      · exact absurd ha.1 h1.1
  | none =>
    have ha := hi.agrees t
    rcases hx : x.sys.threads t with ⟨s, log⟩
    by_cases hp : x.pc t = .asleep
    · rw [hp, hx] at ha
      cases s with
      | active => exact absurd rfl ha.1
      | waiting c d => 
        obtain ⟨u, hu⟩ := hi.woken hf t c d (by rw [hx])
        exact go u (by rw [hu]; rfl)
      | woken c rc => exact ⟨_, .resume t c rc _ hp (.resume t c rc log hx (Or.inl ho)), ne t _ _ hp (by decide)⟩
    · rw [Agrees, if_neg hp, hx] at ha
      have hs : s = .active := ha.1
      subst hs
      by_cases hc : critical (x.pc t) = true
      · exact go t hc
      · cases hp' : x.pc t with
        | begin => exact ⟨_, .lock t _ hp' (.lock t log hx (Or.inl ho)), ne t _ _ hp' (by decide)⟩
        | prepare => exact ⟨_, .prepare t _ hp' (.lock t log hx (Or.inl ho)), ne t _ _ hp' (by decide)⟩
        | asleep => exact absurd hp' hp
        | done => exact absurd hp' ht.1
        | finished => exact absurd hp' ht.2
        | look => rw [hp'] at hc; exact absurd rfl hc
        | unset => rw [hp'] at hc; exact absurd rfl hc
        | seen => rw [hp'] at hc; exact absurd rfl hc
        | raise => rw [hp'] at hc; exact absurd rfl hc
        | notify => rw [hp'] at hc; exact absurd rfl hc
        | leave => rw [hp'] at hc; exact absurd rfl hc

/-- C116.  Claimed: while a thread waits, others can have the mutex.  Shown here for a thread that has locked the mutex once. -/
theorem condition_unlocked_partial (now : Int) (x : Sys) (h : Reaches now x) (t : Nat) (hw : InWait x t) (hh : held (x.threads t).log = 1) : x.owner ≠ some t := by
  intro ho
  rcases (owner_iff (inv_reaches h) t).mp ho with h1 | h1
  · exact h1.2 hw
  · rw [hh] at h1; exact absurd h1.2 (by decide)

/-- C116, refuted.  A thread that waits and has locked the recursive mutex twice keeps it: until the wait is over no other thread has the mutex, so that none can change under it what is waited for. -/
theorem condition_nested_never (now : Int) (x y : Sys) (h : Reaches now x) (t : Nat) (hw : InWait x t) (hh : 2 ≤ held (x.threads t).log) (hy : While t x y) (u : Nat) : ¬ Has y u := by
  have key : Reaches now y ∧ InWait y t ∧ y.owner = some t := by
    induction hy with
    | here => exact ⟨h, hw, (owner_iff (inv_reaches h) t).mpr (Or.inr ⟨hw, hh⟩)⟩
    | step _ hs hz ih => exact ⟨.step ih.1 hs, hz, owner_step hs ih.2.2 ih.2.1 hz⟩
  intro hu
  have := (owner_iff (inv_reaches key.1) u).mpr (Or.inl hu)
  rw [key.2.2] at this
  injection this with this
  subst this
  exact hu.2 key.2.1

/-- C116, refuted: such a thread. -/
theorem condition_nested_counterexample : ∃ x, Reaches 0 x ∧ InWait x 0 ∧ 2 ≤ held (x.threads 0).log ∧ ∀ y, While 0 x y → ∀ u, ¬ Has y u := by
  have h : Reaches 0 _ := .step (.step (.step .initial (.lock 0 [] rfl (Or.inl rfl))) (.lock 0 [(.lock, .ok)] rfl (Or.inr rfl)))
    (.wait 0 0xffffffffffffffff#64 none [(.lock, .ok), (.lock, .ok)] rfl rfl (by simp) rfl)
  have hw : InWait _ 0 := (by simp [InWait, Sys.put] : InWait (((initial 0).put 0 ⟨.active, [(.lock, .ok)]⟩ (some 0) 1).put 0 ⟨.active, [(.lock, .ok), (.lock, .ok)]⟩ (some 0) 2 |>.put 0
    ⟨.waiting 0xffffffffffffffff#64 none, [(.lock, .ok), (.lock, .ok)]⟩ (some 0) 1) 0)
  have hh : 2 ≤ held [(Call.lock, Code.ok), (.lock, .ok)] := by decide
  exact ⟨_, h, hw, hh, fun y hy u => condition_nested_never 0 _ y h 0 hw hh hy u⟩

/-- C116.  Claimed: the time until which a thread waits is the one that is given, and is none if it is infinite.  Shown here for the times of the clock, up to the year 2262. -/
theorem condition_time_partial (c : BitVec 64) (h : c.toNat < 2 ^ 63) : ∃ s n, later c = some (some (s, n)) ∧ s * 1000000000 + n = c.toNat ∧ 0 ≤ n ∧ n < 1000000000 ∧ 0 ≤ s := by
  have hc : c.toInt = c.toNat := by rw [BitVec.toInt_eq_toNat_cond, if_pos (by omega)]
  have hne : c ≠ 0xffffffffffffffff#64 := by rintro rfl; simp at h
  have h0 : 0 ≤ c.toInt := by omega
  refine ⟨_, _, later_eq c hne, ?_, ?_, ?_, ?_⟩
  · have := Int.mul_tdiv_add_tmod c.toInt 1000000000
    omega
  · exact Int.tmod_nonneg _ h0
  · exact Int.tmod_lt_of_pos _ (by decide)
  · exact Int.tdiv_nonneg h0 (by decide)

/-- C116, refuted.  A later time is taken for one before the Epoch: the function fails, or returns at once. -/
theorem condition_time_counterexample : later (0x8000000000000000#64) = some (some (-9223372036, -854775808)) ∧ later (0xffffffffc4653600#64) = some (some (-1, 0)) ∧ later 0xffffffffffffffff#64 = some none := by
  decide

/-- Two threads: the first waits, the second has the mutex and signals. -/
example : ∃ x y, Reaches 0 x ∧ Has x 1 ∧ InWait x 0 ∧ held (x.threads 0).log = 1 ∧ Step x (.did 1 .signal .ok) y ∧ (y.threads 0).status = .woken 0xffffffffffffffff#64 .ok := by
  have h : Reaches 0 _ := .step (.step (.step .initial (.lock 0 [] rfl (Or.inl rfl))) (.wait 0 0xffffffffffffffff#64 none [(.lock, .ok)] rfl rfl (by simp) rfl)) (.lock 1 [] rfl (Or.inl rfl))
  refine ⟨_, _, h, ?_, ?_, ?_, .signal 1 [(.lock, .ok)] rfl, ?_⟩
  · refine ⟨by decide, fun h => h rfl⟩
  · intro h; cases h
  · decide
  · decide

/-- A handoff: thread 0 waits, thread 1 sets the variable, and thread 0 goes on. -/
example : ∃ x, Handoff.Reaches 0 (fun t => t = 1) x ∧ x.flag = true ∧ x.pc 0 = .done ∧ x.pc 1 = .finished ∧ (x.sys.threads 0).log = [(.lock, .ok), (.wait 0xffffffffffffffff#64, .ok), (.unlock, .ok)] := by
  refine ⟨_, .step (.step (.step (.step (.step (.step (.step (.step (.step (.step .initial
    (.lock 0 _ (by decide) (.lock 0 [] rfl (Or.inl rfl)))) (.look 0 rfl)) (.sleep 0 _ rfl (.wait 0 _ none [(.lock, .ok)] rfl rfl (by simp) rfl)))
    (.prepare 1 _ (by decide) (.lock 1 [] rfl (Or.inl rfl)))) (.raise 1 rfl)) (.notify 1 _ _ rfl (.signal 1 [(.lock, .ok)] rfl))) (.leave 1 _ _ rfl (.unlock 1 [(.lock, .ok), (.signal, .ok)] rfl rfl)))
    (.resume 0 _ _ _ rfl (.resume 0 _ _ [(.lock, .ok)] rfl (Or.inl rfl)))) (.look 0 rfl)) (.unlock 0 _ _ rfl (.unlock 0 [(.lock, .ok), (.wait 0xffffffffffffffff#64, .ok)] rfl rfl)), rfl, rfl, rfl, rfl⟩

end Diminuto.Condition
