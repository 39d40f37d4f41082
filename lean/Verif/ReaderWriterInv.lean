import Verif.ReaderWriterLemmas
import Mathlib.Data.List.TakeWhile

/-!
# The invariant of the Reader Writer model
-/

namespace Diminuto.ReaderWriter

variable {N : Nat}

/-- What holds of a thread. -/
def Th (s : Sys N) (t : Fin N) : Prop :=
  match s.phase t with
  | .out => (s.lock.data t = .started ∨ s.lock.data t = .running) ∧ t ∉ s.lock.queue ∧ s.asleep t = false
  | .readerWait _ => (t ∈ s.lock.queue ∧ s.lock.data t = .reader) ∨
      (t ∉ s.lock.queue ∧ s.lock.data t = .readable ∧ s.asleep t = false)
  | .writerWait _ => (t ∈ s.lock.queue ∧ s.lock.data t = .writer) ∨
      (t ∉ s.lock.queue ∧ s.lock.data t = .writable ∧ s.asleep t = false)

/-- The invariant, but for idleness. -/
structure Core (s : Sys N) : Prop where
  nodup : s.lock.queue.Nodup
  th : ∀ t, Th s t
  waiting : s.lock.waiting = s.lock.queue.length
  maximum : s.lock.waiting ≤ s.lock.maximum
  reading : s.lock.reading = s.readers.length + count s.lock.data .readable
  writing : s.lock.writing = s.writers.length + count s.lock.data .writable
  excl : s.lock.writing = 0 ∨ (s.lock.writing = 1 ∧ s.lock.reading = 0)

/-- The invariant. -/
structure Inv (s : Sys N) : Prop extends Core s where
  idle : s.lock.reading = 0 → s.lock.writing = 0 → s.lock.queue = []

theorem Core.live {s : Sys N} (h : Core s) : Live s.lock := by
  intro t ht
  have := h.th t
  unfold Th at this
  split at this
  · exact absurd ht this.2.1
  · rcases this with h | h
    · exact Or.inl h.2
    · exact absurd ht h.1
  · rcases this with h | h
    · exact Or.inr h.2
    · exact absurd ht h.1

theorem Core.audit {s : Sys N} (h : Core s) : s.lock.audit = true := by
  have h1 := h.waiting
  have h2 := h.maximum
  have h3 := h.reading
  have h4 := h.writing
  simp only [Lock.audit, Bool.and_eq_true, decide_eq_true_eq, beq_iff_eq, List.all_eq_true,
    Bool.or_eq_true]
  refine ⟨⟨⟨⟨⟨⟨?_, ?_⟩, ?_⟩, ?_⟩, ?_⟩, ?_⟩, ?_⟩ <;> try omega
  intro t ht
  exact Or.inl (h.live t ht)

theorem Core.check {s : Sys N} (h : Core s) {c : Bool} (hc : c = true) : s.check c = some s := by
  unfold Sys.check
  rw [h.audit, hc]
  rfl

theorem Inv.init : Inv (Sys.init N) where
  nodup := by simp [Sys.init]
  th := by intro t; simp [Th, Sys.init]
  waiting := rfl
  maximum := Int.le_refl _
  reading := by simp [Sys.init, count]
  writing := by simp [Sys.init, count]
  excl := Or.inl rfl
  idle := fun _ _ => rfl

theorem Inv.call {s : Sys N} (h : Inv s) (t : Fin N) : Inv (s.call t) where
  nodup := h.nodup
  th := h.th
  waiting := h.waiting
  maximum := h.maximum
  reading := h.reading
  writing := h.writing
  excl := h.excl
  idle := h.idle

theorem enqueue_queue {l : Lock N} (hl : Live l) (t : Fin N) (p : Bool) :
    (enqueue l t p).queue = if p then t :: l.queue else l.queue ++ [t] := by
  have h1 : l.queue.takeWhile (fun n => passed (l.data n)) = [] := by
    cases hq : l.queue with
    | nil => rfl
    | cons x q => rcases hl x (by simp [hq]) with e | e <;> simp [e, passed]
  have h2 : l.queue.dropWhile (fun n => passed (l.data n)) = l.queue := by
    cases hq : l.queue with
    | nil => rfl
    | cons x q => rcases hl x (by simp [hq]) with e | e <;> simp [e, passed]
  unfold enqueue
  simp only []
  by_cases hm : l.waiting + 1 > l.maximum
  · rw [if_pos hm]; cases p <;> simp [h1, h2]
  · rw [if_neg hm]; cases p <;> simp [h1, h2]

theorem enqueue_rest (l : Lock N) (t : Fin N) (p : Bool) :
    (enqueue l t p).data = l.data ∧ (enqueue l t p).reading = l.reading ∧
    (enqueue l t p).writing = l.writing ∧ (enqueue l t p).waiting = l.waiting + 1 ∧
    l.waiting + 1 ≤ (enqueue l t p).maximum := by
  unfold enqueue
  simp only []
  by_cases hm : l.waiting + 1 > l.maximum
  · rw [if_pos hm]; cases p <;> simp
  · rw [if_neg hm]; cases p <;> simp <;> omega

/-- A request to wait. -/
def Waits (role : Role) (phase : Phase) : Prop :=
  (role = .reader ∧ ∃ b, phase = .readerWait b) ∨ (role = .writer ∧ ∃ b, phase = .writerWait b)

theorem Th.congr {s s' : Sys N} {t : Fin N} (h : Th s t) (hp : s'.phase t = s.phase t)
    (hd : s'.lock.data t = s.lock.data t) (hq : t ∈ s'.lock.queue ↔ t ∈ s.lock.queue)
    (ha : s'.asleep t = s.asleep t) : Th s' t := by
  unfold Th at *
  rw [hp, hd, hq, ha]
  exact h

theorem Th.out {s : Sys N} {t : Fin N} (h : Th s t) (ho : s.phase t = .out) :
    (s.lock.data t = .started ∨ s.lock.data t = .running) ∧ t ∉ s.lock.queue ∧ s.asleep t = false := by
  unfold Th at h
  rw [ho] at h
  exact h

theorem wait_live {s : Sys N} (h : Core s) {t : Fin N} (ho : s.phase t = .out) (role : Role) :
    Live (s.lock.dataset t role) := by
  obtain ⟨hd, hq, ha⟩ := (h.th t).out ho
  intro x hx
  have hx' : x ∈ s.lock.queue := hx
  have : x ≠ t := fun e => hq (e ▸ hx')
  simp only [Lock.dataset, Function.update_of_ne this]
  exact h.live x hx

theorem wait_queue {s : Sys N} (h : Core s) {t : Fin N} (ho : s.phase t = .out) (role : Role)
    (phase : Phase) (p : Bool) :
    (s.wait t role phase p).lock.queue = if p then t :: s.lock.queue else s.lock.queue ++ [t] :=
  enqueue_queue (wait_live h ho role) t p

theorem Inv.wait {s : Sys N} (h : Inv s) {t : Fin N} (ho : s.phase t = .out) {role : Role} {phase : Phase}
    (hw : Waits role phase) (hb : s.lock.reading ≠ 0 ∨ s.lock.writing ≠ 0) (p : Bool) :
    Inv (s.wait t role phase p) := by
  obtain ⟨hd, hq, ha⟩ := (h.th t).out ho
  have hQ := wait_queue h.toCore ho role phase p
  obtain ⟨r1, r2, r3, r4, r5⟩ := enqueue_rest (s.lock.dataset t role) t p
  have c1 : ∀ r, (r = .readable ∨ r = .writable) → count (s.wait t role phase p).lock.data r =
      count s.lock.data r := by
    intro r hr
    have := count_update s.lock.data t r role
    have e1 : s.lock.data t ≠ r := by
      rcases hd with e | e <;> rcases hr with e' | e' <;> rw [e, e'] <;> simp
    have e2 : role ≠ r := by
      rcases hw with ⟨e, _⟩ | ⟨e, _⟩ <;> rcases hr with e' | e' <;> rw [e, e'] <;> simp
    simp only [e1, e2, if_false] at this
    show count (enqueue (s.lock.dataset t role) t p).data r = _
    rw [r1]
    exact this
  refine ⟨⟨?_, ?_, ?_, ?_, ?_, ?_, ?_⟩, ?_⟩
  · rw [hQ]
    cases p
    · simp only [Bool.false_eq_true, if_false]
      exact List.nodup_append.mpr ⟨h.nodup, by simp, by simp; grind⟩
    · simp only [if_true]
      exact List.nodup_cons.mpr ⟨hq, h.nodup⟩
  · intro x
    by_cases hx : x = t
    · subst hx
      have m : x ∈ (s.wait x role phase p).lock.queue := by rw [hQ]; cases p <;> simp
      have d : (s.wait x role phase p).lock.data x = role := by
        show (enqueue (s.lock.dataset x role) x p).data x = _
        rw [r1]; simp [Lock.dataset]
      have ph : (s.wait x role phase p).phase x = phase := by simp [Sys.wait]
      unfold Th
      rcases hw with ⟨e, b, e'⟩ | ⟨e, b, e'⟩
      · rw [ph]
        subst e'
        exact Or.inl ⟨m, by rw [d, e]⟩
      · rw [ph]
        subst e'
        exact Or.inl ⟨m, by rw [d, e]⟩
    · refine (h.th x).congr (by simp [Sys.wait, hx]) ?_ ?_ (by simp [Sys.wait, hx])
      · show (enqueue (s.lock.dataset t role) t p).data x = _
        rw [r1]; simp [Lock.dataset, hx]
      · rw [hQ]; cases p <;> simp [hx]
  · have e : (s.wait t role phase p).lock.waiting = s.lock.waiting + 1 := r4
    rw [e, hQ, h.waiting]
    cases p <;> simp
  · have e : (s.wait t role phase p).lock.waiting = s.lock.waiting + 1 := r4
    rw [e]
    exact r5
  · rw [c1 _ (Or.inl rfl)]
    exact r2.trans h.reading
  · rw [c1 _ (Or.inr rfl)]
    exact r3.trans h.writing
  · have e1 : (s.wait t role phase p).lock.reading = s.lock.reading := r2
    have e2 : (s.wait t role phase p).lock.writing = s.lock.writing := r3
    rw [e1, e2]
    exact h.excl
  · intro a b
    have e1 : (s.wait t role phase p).lock.reading = s.lock.reading := r2
    have e2 : (s.wait t role phase p).lock.writing = s.lock.writing := r3
    rw [e1] at a
    rw [e2] at b
    rcases hb with e | e
    · exact absurd a e
    · exact absurd b e

/-- What `readerBegin` does in a state of the invariant. -/
theorem readerBegin_eq {s : Sys N} (h : Inv s) {t : Fin N} (timeout : Timeout) (p : Bool) :
    s.readerBegin t timeout p =
      if s.lock.writing = 0 ∧ s.lock.queue = [] then
        some { s.call t with
          lock := { s.lock with reading := s.lock.reading + 1 }
          readers := t :: s.readers
          grants := s.grants ++ [s.calls] }
      else if timeout = .poll then some (s.call t)
      else some ((s.call t).wait t .reader (.readerWait (decide (timeout = .finite))) p) := by
  have hI := h.call t
  have hw0 : ¬ s.lock.writing < 0 := by have := h.excl; omega
  have hr0 : ¬ s.lock.reading < 0 := by have := h.reading; omega
  unfold Sys.readerBegin
  have e : (s.call t).lock = s.lock := rfl
  simp only [e]
  by_cases hw : s.lock.writing ≤ 0
  · rw [if_pos hw, head_eq h.live]
    have hw' : s.lock.writing = 0 := by omega
    simp only []
    by_cases hq : s.lock.queue = []
    · rw [if_pos ⟨hw, by simp [hq]⟩, if_pos ⟨hw', hq⟩]
      refine (Core.check ?_ ?_).trans ?_
      · refine ⟨h.nodup, ?_, h.waiting, h.maximum, ?_, h.writing, Or.inl hw'⟩
        · intro x
          exact (h.th x).congr rfl rfl Iff.rfl rfl
        · have := h.reading
          have e1 : (s.call t).readers = s.readers := rfl
          simp only [List.length_cons, e1]
          push_cast
          omega
      · have hwt := h.waiting
        simp only [Lock.readerContract, Bool.and_eq_true, decide_eq_true_eq, beq_iff_eq]
        refine ⟨⟨by omega, hw'⟩, by omega⟩
      · simp [Sys.call]
    · rw [if_neg (by rintro ⟨-, e⟩; exact hq (List.head?_eq_none_iff.mp e)), if_neg (c := s.lock.writing = 0 ∧ s.lock.queue = []) (by rintro ⟨-, e⟩; exact hq e)]
      have : ({ s.call t with lock := s.lock } : Sys N) = s.call t := rfl
      rw [this]
      by_cases hp : timeout = .poll
      · rw [if_pos hp, if_pos hp, hI.check rfl]
      · rw [if_neg hp, if_neg hp]
  · rw [if_neg hw]
    simp only []
    rw [if_neg (by rintro ⟨e, -⟩; exact hw e), if_neg (c := s.lock.writing = 0 ∧ s.lock.queue = []) (by rintro ⟨e, -⟩; omega)]
    have : ({ s.call t with lock := s.lock } : Sys N) = s.call t := rfl
    rw [this]
    by_cases hp : timeout = .poll
    · rw [if_pos hp, if_pos hp, hI.check rfl]
    · rw [if_neg hp, if_neg hp]

/-- What `writerBegin` does in a state of the invariant. -/
theorem writerBegin_eq {s : Sys N} (h : Inv s) {t : Fin N} (timeout : Timeout) (p : Bool) :
    s.writerBegin t timeout p =
      if s.lock.reading = 0 ∧ s.lock.writing = 0 then
        some { s.call t with
          lock := { s.lock with writing := s.lock.writing + 1 }
          writers := t :: s.writers
          grants := s.grants ++ [s.calls] }
      else if timeout = .poll then some (s.call t)
      else some ((s.call t).wait t .writer (.writerWait (decide (timeout = .finite))) p) := by
  have hI := h.call t
  have hw0 : ¬ s.lock.writing < 0 := by have := h.excl; omega
  have hr0 : ¬ s.lock.reading < 0 := by have := h.reading; omega
  unfold Sys.writerBegin
  have e : (s.call t).lock = s.lock := rfl
  simp only [e]
  by_cases hw : s.lock.reading ≤ 0 ∧ s.lock.writing ≤ 0
  · rw [if_pos hw, head_eq h.live]
    have hr' : s.lock.reading = 0 := by omega
    have hw' : s.lock.writing = 0 := by omega
    have hq := h.idle hr' hw'
    simp only []
    rw [if_pos ⟨hw.1, hw.2, by simp [hq]⟩, if_pos ⟨hr', hw'⟩]
    refine (Core.check ?_ ?_).trans ?_
    · refine ⟨h.nodup, ?_, h.waiting, h.maximum, h.reading, ?_, Or.inr ⟨?_, hr'⟩⟩
      · intro x
        exact (h.th x).congr rfl rfl Iff.rfl rfl
      · have := h.writing
        have e1 : (s.call t).writers = s.writers := rfl
        simp only [List.length_cons, e1]
        push_cast
        omega
      · simp only []; omega
    · have hwt := h.waiting
      simp only [Lock.writerContract, Bool.and_eq_true, decide_eq_true_eq, beq_iff_eq]
      refine ⟨⟨hr', by omega⟩, by omega⟩
    · simp [Sys.call]
  · rw [if_neg hw]
    simp only []
    rw [if_neg (by rintro ⟨e, e', -⟩; exact hw ⟨e, e'⟩), if_neg (c := s.lock.reading = 0 ∧ s.lock.writing = 0) (by rintro ⟨e, e'⟩; omega)]
    have : ({ s.call t with lock := s.lock } : Sys N) = s.call t := rfl
    rw [this]
    by_cases hp : timeout = .poll
    · rw [if_pos hp, if_pos hp, hI.check rfl]
    · rw [if_neg hp, if_neg hp]

theorem Inv.readerBegin {s : Sys N} (h : Inv s) {t : Fin N} (ho : s.phase t = .out) (timeout : Timeout)
    (p : Bool) : ∃ s', s.readerBegin t timeout p = some s' ∧ Inv s' := by
  rw [readerBegin_eq h]
  have hI := h.call t
  by_cases hc : s.lock.writing = 0 ∧ s.lock.queue = []
  · rw [if_pos hc]
    refine ⟨_, rfl, ⟨h.nodup, ?_, h.waiting, h.maximum, ?_, h.writing, Or.inl hc.1⟩, fun _ _ => hc.2⟩
    · intro x
      exact (h.th x).congr rfl rfl Iff.rfl rfl
    · have := h.reading
      simp only [List.length_cons]
      push_cast
      omega
  · rw [if_neg hc]
    by_cases hp : timeout = .poll
    · rw [if_pos hp]
      exact ⟨_, rfl, hI⟩
    · rw [if_neg hp]
      refine ⟨_, rfl, hI.wait ho (Or.inl ⟨rfl, _, rfl⟩) ?_ p⟩
      show s.lock.reading ≠ 0 ∨ s.lock.writing ≠ 0
      by_cases h1 : s.lock.writing = 0
      · left
        intro h2
        exact hc ⟨h1, h.idle h2 h1⟩
      · exact Or.inr h1

theorem Inv.writerBegin {s : Sys N} (h : Inv s) {t : Fin N} (ho : s.phase t = .out) (timeout : Timeout)
    (p : Bool) : ∃ s', s.writerBegin t timeout p = some s' ∧ Inv s' := by
  rw [writerBegin_eq h]
  have hI := h.call t
  by_cases hc : s.lock.reading = 0 ∧ s.lock.writing = 0
  · rw [if_pos hc]
    refine ⟨_, rfl, ⟨h.nodup, ?_, h.waiting, h.maximum, h.reading, ?_, ?_⟩, ?_⟩
    · intro x
      exact (h.th x).congr rfl rfl Iff.rfl rfl
    · have := h.writing
      simp only [List.length_cons]
      push_cast
      omega
    · right
      simp only []
      omega
    · intro _ hw
      simp only [] at hw
      omega
  · rw [if_neg hc]
    by_cases hp : timeout = .poll
    · rw [if_pos hp]
      exact ⟨_, rfl, hI⟩
    · rw [if_neg hp]
      refine ⟨_, rfl, hI.wait ho (Or.inr ⟨rfl, _, rfl⟩) ?_ p⟩
      show s.lock.reading ≠ 0 ∨ s.lock.writing ≠ 0
      omega

/-- The state after an activated thread returns from its begin. -/
def Sys.returned (s : Sys N) (t : Fin N) (reader : Bool) : Sys N :=
  { s with
    lock := s.lock.dataset t .running
    phase := Function.update s.phase t .out
    asleep := Function.update s.asleep t false
    readers := if reader then t :: s.readers else s.readers
    writers := if reader then s.writers else t :: s.writers }

theorem Inv.returned {s : Sys N} (h : Inv s) {t : Fin N} {reader : Bool}
    (hd : s.lock.data t = if reader then .readable else .writable)
    (hq : t ∉ s.lock.queue) : Inv (s.returned t reader) := by
  have c1 := count_update s.lock.data t .readable .running
  have c2 := count_update s.lock.data t .writable .running
  have hr := h.reading
  have hw := h.writing
  refine ⟨⟨h.nodup, ?_, h.waiting, h.maximum, ?_, ?_, h.excl⟩, h.idle⟩
  · intro x
    by_cases hx : x = t
    · subst hx
      simp [Th, Sys.returned, Lock.dataset, hq]
    · exact (h.th x).congr (by simp [Sys.returned, hx]) (by simp [Sys.returned, Lock.dataset, hx])
        Iff.rfl (by simp [Sys.returned, hx])
  · simp only [Sys.returned, Lock.dataset]
    cases reader <;> simp [hd] at c1 c2 ⊢ <;> omega
  · simp only [Sys.returned, Lock.dataset]
    cases reader <;> simp [hd] at c1 c2 ⊢ <;> omega

theorem activated_reader {s : Sys N} (h : Inv s) {t : Fin N} {b : Bool} (hp : s.phase t = .readerWait b)
    (hd : s.lock.data t = .readable) (hq : t ∉ s.lock.queue) :
    s.activated t = some (s.returned t true) := by
  have hI : Inv (s.returned t true) := h.returned (by simpa using hd) hq
  have := count_pos hd
  have hr := h.reading
  have he := h.excl
  have hw := h.waiting
  have := hI.check (c := s.lock.readerContract) (by
    simp only [Lock.readerContract, Bool.and_eq_true, decide_eq_true_eq, beq_iff_eq]
    refine ⟨⟨by omega, by omega⟩, by omega⟩)
  unfold Sys.activated
  rw [hp]
  exact this

theorem activated_writer {s : Sys N} (h : Inv s) {t : Fin N} {b : Bool} (hp : s.phase t = .writerWait b)
    (hd : s.lock.data t = .writable) (hq : t ∉ s.lock.queue) :
    s.activated t = some (s.returned t false) := by
  have hI : Inv (s.returned t false) := h.returned (by simpa using hd) hq
  have := count_pos hd
  have hr := h.writing
  have he := h.excl
  have hw := h.waiting
  have := hI.check (c := s.lock.writerContract) (by
    simp only [Lock.writerContract, Bool.and_eq_true, decide_eq_true_eq, beq_iff_eq]
    refine ⟨⟨by omega, by omega⟩, by omega⟩)
  unfold Sys.activated
  rw [hp]
  exact this

/-- What a wake does. -/
theorem wake_eq {s : Sys N} (h : Inv s) {t : Fin N} (ho : s.phase t ≠ .out) :
    (t ∈ s.lock.queue ∧ s.wake t = some { s with asleep := Function.update s.asleep t true }) ∨
    (t ∉ s.lock.queue ∧ s.lock.data t = .readable ∧ (∃ b, s.phase t = .readerWait b) ∧
      s.wake t = some (s.returned t true)) ∨
    (t ∉ s.lock.queue ∧ s.lock.data t = .writable ∧ (∃ b, s.phase t = .writerWait b) ∧
      s.wake t = some (s.returned t false)) := by
  have ht := h.th t
  unfold Th at ht
  unfold Sys.wake
  cases hp : s.phase t with
  | out => exact absurd hp ho
  | readerWait b =>
    rw [hp] at ht
    simp only [] at ht
    rcases ht with ⟨a, c⟩ | ⟨a, c, d⟩
    · left
      refine ⟨a, ?_⟩
      rw [if_neg (c := s.lock.data t = pending (.readerWait b)) (by rw [c]; simp [pending])]
    · right; left
      refine ⟨a, c, ⟨b, rfl⟩, ?_⟩
      rw [if_pos (c := s.lock.data t = pending (.readerWait b)) c]
      exact activated_reader h hp c a
  | writerWait b =>
    rw [hp] at ht
    simp only [] at ht
    rcases ht with ⟨a, c⟩ | ⟨a, c, d⟩
    · left
      refine ⟨a, ?_⟩
      rw [if_neg (c := s.lock.data t = pending (.writerWait b)) (by rw [c]; simp [pending])]
    · right; right
      refine ⟨a, c, ⟨b, rfl⟩, ?_⟩
      rw [if_pos (c := s.lock.data t = pending (.writerWait b)) c]
      exact activated_writer h hp c a

theorem Inv.wake {s : Sys N} (h : Inv s) {t : Fin N} (ho : s.phase t ≠ .out) :
    ∃ s', s.wake t = some s' ∧ Inv s' := by
  rcases wake_eq h ho with ⟨hq, e⟩ | ⟨hq, hd, -, e⟩ | ⟨hq, hd, -, e⟩
  · refine ⟨_, e, ⟨h.nodup, ?_, h.waiting, h.maximum, h.reading, h.writing, h.excl⟩, h.idle⟩
    intro x
    by_cases hx : x = t
    · subst hx
      have ht := h.th x
      unfold Th at ht ⊢
      simp only []
      cases hp : s.phase x with
      | out => exact absurd hp ho
      | readerWait b =>
        rw [hp] at ht
        exact Or.inl (ht.resolve_right (fun c => c.1 hq))
      | writerWait b =>
        rw [hp] at ht
        exact Or.inl (ht.resolve_right (fun c => c.1 hq))
    · exact (h.th x).congr rfl rfl Iff.rfl (by simp [hx])
  · exact ⟨_, e, h.returned (by simpa using hd) hq⟩
  · exact ⟨_, e, h.returned (by simpa using hd) hq⟩

/-- The state after a begin fails. -/
def Sys.failed (s : Sys N) (t : Fin N) : Sys N :=
  { s with
    lock := (dequeue s.lock t).dataset t .running
    phase := Function.update s.phase t .out
    asleep := Function.update s.asleep t false }

theorem Inv.failed {s : Sys N} (h : Inv s) {t : Fin N} (hq : t ∈ s.lock.queue) : Inv (s.failed t) := by
  have c1 := count_update s.lock.data t .readable .running
  have c2 := count_update s.lock.data t .writable .running
  have hr := h.reading
  have hw := h.writing
  have hl := h.live t hq
  have hlen := List.length_erase_of_mem hq
  have hpos := List.length_pos_of_mem hq
  have hwt := h.waiting
  have hm := h.maximum
  have n1 : s.lock.data t ≠ .readable := by rcases hl with e | e <;> rw [e] <;> simp
  have n2 : s.lock.data t ≠ .writable := by rcases hl with e | e <;> rw [e] <;> simp
  simp only [n1, n2, if_false, reduceCtorEq] at c1 c2
  refine ⟨⟨h.nodup.erase t, ?_, ?_, ?_, ?_, ?_, h.excl⟩, ?_⟩
  · intro x
    by_cases hx : x = t
    · subst hx
      have : x ∉ s.lock.queue.erase x := fun m => (h.nodup.mem_erase_iff.mp m).1 rfl
      simp [Th, Sys.failed, Lock.dataset, dequeue, this]
    · exact (h.th x).congr (by simp [Sys.failed, hx]) (by simp [Sys.failed, Lock.dataset, dequeue, hx])
        (by simp [Sys.failed, Lock.dataset, dequeue, List.mem_erase_of_ne hx]) (by simp [Sys.failed, hx])
  · simp only [Sys.failed, Lock.dataset, dequeue]; omega
  · simp only [Sys.failed, Lock.dataset, dequeue]; omega
  · simp only [Sys.failed, Lock.dataset, dequeue]; omega
  · simp only [Sys.failed, Lock.dataset, dequeue]; omega
  · intro a b
    simp only [Sys.failed, Lock.dataset, dequeue] at a b ⊢
    rw [h.idle a b]; rfl

/-- What a timeout does. -/
theorem timeout_eq {s : Sys N} (h : Inv s) {t : Fin N} (ho : s.phase t ≠ .out) :
    (t ∈ s.lock.queue ∧ s.timeout t = some (s.failed t)) ∨
    (t ∉ s.lock.queue ∧ s.lock.data t = .readable ∧ (∃ b, s.phase t = .readerWait b) ∧
      s.timeout t = some (s.returned t true)) ∨
    (t ∉ s.lock.queue ∧ s.lock.data t = .writable ∧ (∃ b, s.phase t = .writerWait b) ∧
      s.timeout t = some (s.returned t false)) := by
  have ht := h.th t
  unfold Th at ht
  unfold Sys.timeout
  cases hp : s.phase t with
  | out => exact absurd hp ho
  | readerWait b =>
    rw [hp] at ht
    simp only [] at ht
    rcases ht with ⟨a, c⟩ | ⟨a, c, d⟩
    · left
      refine ⟨a, ?_⟩
      rw [if_neg (by rw [c]; simp), if_neg (by rw [c]; simp)]
      exact (h.failed a).check rfl
    · right; left
      refine ⟨a, c, ⟨b, rfl⟩, ?_⟩
      rw [if_pos c]
      exact activated_reader h hp c a
  | writerWait b =>
    rw [hp] at ht
    simp only [] at ht
    rcases ht with ⟨a, c⟩ | ⟨a, c, d⟩
    · left
      refine ⟨a, ?_⟩
      rw [if_neg (by rw [c]; simp), if_neg (by rw [c]; simp)]
      exact (h.failed a).check rfl
    · right; right
      refine ⟨a, c, ⟨b, rfl⟩, ?_⟩
      rw [if_neg (by rw [c]; simp), if_pos c]
      exact activated_writer h hp c a

theorem Inv.timeout {s : Sys N} (h : Inv s) {t : Fin N} (ho : s.phase t ≠ .out) :
    ∃ s', s.timeout t = some s' ∧ Inv s' := by
  rcases timeout_eq h ho with ⟨hq, e⟩ | ⟨hq, hd, -, e⟩ | ⟨hq, hd, -, e⟩
  · exact ⟨_, e, h.failed hq⟩
  · exact ⟨_, e, h.returned (by simpa using hd) hq⟩
  · exact ⟨_, e, h.returned (by simpa using hd) hq⟩

/-- What `resume` does when nobody has the lock. -/
theorem Core.resume {s : Sys N} (h : Core s) (hr : s.lock.reading = 0) (hw : s.lock.writing = 0) :
    Inv s.resume ∧ s.resume.lock.endContract = true := by
  have hwt := h.waiting
  have hmx := h.maximum
  have hrd := h.reading
  have hwr := h.writing
  unfold Sys.resume
  cases hq : s.lock.queue with
  | nil =>
    rw [resume_nil hq]
    simp only [Sys.broadcast, List.map_nil, List.append_nil]
    refine ⟨⟨h, fun _ _ => hq⟩, ?_⟩
    rw [hq] at hwt
    simp [Lock.endContract, hr, hw, hwt]
  | cons t q =>
    have hn := h.nodup
    rcases h.live t (by simp [hq]) with hd | hd
    · rw [resume_reader h.nodup h.live hq hd]
      simp only [Sys.broadcast]
      generalize hts : (s.lock.queue.takeWhile fun t => s.lock.data t = .reader) = ts
      generalize hqs : (s.lock.queue.dropWhile fun t => s.lock.data t = .reader) = qs
      have happ : s.lock.queue = ts ++ qs := by
        rw [← hts, ← hqs]; exact (List.takeWhile_append_dropWhile).symm
      have hbatch : s.lock.batch = { s.lock with
          queue := qs
          data := mark s.lock.data ts .readable
          waiting := s.lock.waiting - ts.length
          reading := s.lock.reading + ts.length } := by
        simp only [Lock.batch, hts, hqs]
      have hne : 0 < ts.length := by
        rw [← hts, hq]
        simp [hd]
      have hrd' : ∀ x ∈ ts, s.lock.data x = .reader := by
        intro x hx
        rw [← hts] at hx
        simpa using List.mem_takeWhile_imp hx
      have hlen : s.lock.queue.length = ts.length + qs.length := by rw [happ]; simp
      rw [happ] at hn
      have hnn := List.nodup_append.mp hn
      rw [hbatch]
      have k1 := count_mark s.lock.data .readable ts hnn.1 (fun x hx => by rw [hrd' x hx]; simp)
      have k2 := count_mark_ne s.lock.data .writable .readable (by simp) ts hnn.1
        (fun x hx => by rw [hrd' x hx]; simp)
      refine ⟨⟨⟨hnn.2.1, ?_, ?_, ?_, ?_, ?_, ?_⟩, ?_⟩, ?_⟩
      · intro x
        have hx := h.th x
        unfold Th at hx ⊢
        simp only []
        cases hp : s.phase x with
        | out =>
          rw [hp] at hx
          simp only [] at hx ⊢
          rw [happ] at hx
          have : x ∉ ts ∧ x ∉ qs := by simpa using hx.2.1
          simp [mark, this.1, this.2, hx.1, hx.2.2]
        | readerWait b =>
          rw [hp] at hx
          simp only [] at hx ⊢
          rw [happ] at hx
          by_cases hxt : x ∈ ts
          · right
            refine ⟨fun hxq => hnn.2.2 x hxt x hxq rfl, ?_, trivial⟩
            simp [mark, hxt]
          · simp only [mark, hxt, if_false]
            simp only [List.mem_append, hxt, false_or] at hx
            rcases hx with hx | hx
            · exact Or.inl hx
            · exact Or.inr ⟨hx.1, hx.2.1, trivial⟩
        | writerWait b =>
          rw [hp] at hx
          simp only [] at hx ⊢
          rw [happ] at hx
          have hxt : x ∉ ts := by
            intro hxt
            have := hrd' x hxt
            rcases hx with hx | hx <;> simp_all
          simp only [mark, hxt, if_false]
          simp only [List.mem_append, hxt, false_or] at hx
          exact hx
      · simp only []; omega
      · simp only []; omega
      · simp only []; omega
      · simp only []; omega
      · simp only []; omega
      · simp only []; omega
      · simp only [Lock.endContract, Bool.or_eq_true, Bool.and_eq_true, decide_eq_true_eq, beq_iff_eq]
        left; left
        refine ⟨⟨by omega, by omega⟩, by omega⟩
    · rw [resume_writer h.live hq hd]
      simp only [Sys.broadcast]
      rw [hq] at hn
      have hnn := List.nodup_cons.mp hn
      have hlen : s.lock.queue.length = q.length + 1 := by rw [hq]; simp
      have k1 := count_update s.lock.data t .readable .writable
      have k2 := count_update s.lock.data t .writable .writable
      simp only [hd, reduceCtorEq, if_false, if_true] at k1 k2
      refine ⟨⟨⟨hnn.2, ?_, ?_, ?_, ?_, ?_, ?_⟩, ?_⟩, ?_⟩
      · intro x
        have hx := h.th x
        unfold Th at hx ⊢
        simp only []
        by_cases hxt : x = t
        · subst hxt
          cases hp : s.phase x with
          | out => rw [hp] at hx; simp [hq] at hx
          | readerWait b => rw [hp] at hx; simp [hd] at hx
          | writerWait b =>
            right
            exact ⟨hnn.1, by simp, rfl⟩
        · rw [Function.update_of_ne hxt]
          rw [hq] at hx
          simp only [List.mem_cons, hxt, false_or] at hx
          cases hp : s.phase x with
          | out => rw [hp] at hx; exact hx
          | readerWait b => rw [hp] at hx; exact hx
          | writerWait b =>
            rw [hp] at hx
            rcases hx with hx | hx
            · exact Or.inl hx
            · exact Or.inr ⟨hx.1, hx.2.1, rfl⟩
      · simp only []; omega
      · simp only []; omega
      · simp only []; omega
      · simp only []; omega
      · simp only []; omega
      · simp only []; omega
      · simp only [Lock.endContract, Bool.or_eq_true, Bool.and_eq_true, decide_eq_true_eq, beq_iff_eq]
        left; right
        refine ⟨⟨by omega, by omega⟩, by omega⟩

/-- The state in which an end function calls `resume`. -/
def Sys.ended (s : Sys N) (t : Fin N) (reader : Bool) : Sys N :=
  { s with
    lock := if reader then { s.lock with reading := s.lock.reading - 1 }
      else { s.lock with writing := s.lock.writing - 1 }
    readers := if reader then s.readers.erase t else s.readers
    writers := if reader then s.writers else s.writers.erase t }

theorem Inv.endedReader {s : Sys N} (h : Inv s) {t : Fin N} (ht : t ∈ s.readers) :
    0 < s.lock.reading ∧ s.lock.writing = 0 ∧ Core (s.ended t true) := by
  have hlen := List.length_erase_of_mem ht
  have hpos := List.length_pos_of_mem ht
  have hr := h.reading
  have he := h.excl
  refine ⟨by omega, by omega, h.nodup, ?_, h.waiting, h.maximum, ?_, h.writing, Or.inl ?_⟩
  · intro x
    exact (h.th x).congr rfl rfl Iff.rfl rfl
  · simp only [Sys.ended, if_true]; omega
  · simp only [Sys.ended, if_true]; omega

theorem Inv.endedWriter {s : Sys N} (h : Inv s) {t : Fin N} (ht : t ∈ s.writers) :
    s.lock.reading = 0 ∧ s.lock.writing = 1 ∧ Core (s.ended t false) := by
  have hlen := List.length_erase_of_mem ht
  have hpos := List.length_pos_of_mem ht
  have hr := h.writing
  have he := h.excl
  refine ⟨by omega, by omega, h.nodup, ?_, h.waiting, h.maximum, h.reading, ?_, Or.inl ?_⟩
  · intro x
    exact (h.th x).congr rfl rfl Iff.rfl rfl
  · simp only [Sys.ended, Bool.false_eq_true, if_false]; omega
  · simp only [Sys.ended, Bool.false_eq_true, if_false]; omega

/-- What `readerEnd` does. -/
theorem readerEnd_eq {s : Sys N} (h : Inv s) {t : Fin N} (ht : t ∈ s.readers) :
    (1 < s.lock.reading ∧ s.readerEnd t = some (s.ended t true) ∧ Inv (s.ended t true)) ∨
    (s.lock.reading = 1 ∧ s.readerEnd t = some (s.ended t true).resume ∧ Inv (s.ended t true).resume) := by
  obtain ⟨h1, h2, hc⟩ := h.endedReader ht
  have hr : (s.ended t true).lock.reading = s.lock.reading - 1 := by simp [Sys.ended]
  have hw : (s.ended t true).lock.writing = s.lock.writing := by simp [Sys.ended]
  have hwt := hc.waiting
  unfold Sys.readerEnd
  rw [if_pos ⟨h1, h2⟩]
  have e : ({ s with
      lock := { s.lock with reading := s.lock.reading - 1 }
      readers := s.readers.erase t } : Sys N) = s.ended t true := by simp [Sys.ended]
  simp only [e]
  by_cases hb : 0 < s.lock.reading - 1
  · left
    rw [if_pos hb]
    refine ⟨by omega, hc.check ?_, hc, fun a _ => by omega⟩
    simp only [Lock.endContract, Bool.or_eq_true, Bool.and_eq_true, decide_eq_true_eq, beq_iff_eq]
    left; left
    refine ⟨⟨by omega, by omega⟩, by omega⟩
  · right
    rw [if_neg hb]
    obtain ⟨i, k⟩ := hc.resume (by omega) (by omega)
    exact ⟨by omega, i.check k, i⟩

/-- What `writerEnd` does. -/
theorem writerEnd_eq {s : Sys N} (h : Inv s) {t : Fin N} (ht : t ∈ s.writers) :
    s.writerEnd t = some (s.ended t false).resume ∧ Inv (s.ended t false).resume := by
  obtain ⟨h1, h2, hc⟩ := h.endedWriter ht
  have hr : (s.ended t false).lock.reading = s.lock.reading := by simp [Sys.ended]
  have hw : (s.ended t false).lock.writing = s.lock.writing - 1 := by simp [Sys.ended]
  unfold Sys.writerEnd
  rw [if_pos ⟨h1, h2⟩]
  have e : ({ s with
      lock := { s.lock with writing := s.lock.writing - 1 }
      writers := s.writers.erase t } : Sys N) = s.ended t false := by simp [Sys.ended]
  simp only [e]
  obtain ⟨i, k⟩ := hc.resume (by omega) (by omega)
  exact ⟨i.check k, i⟩

theorem Legal.phase {s : Sys N} {t : Fin N} (h : (Event.timeout t).Legal s) : s.phase t ≠ .out := by
  rcases h with e | e <;> rw [e] <;> simp

theorem Inv.step {s : Sys N} (h : Inv s) {e : Event N} (hl : e.Legal s) :
    ∃ s', s.step e = some s' ∧ Inv s' := by
  cases e with
  | readerBegin t timeout p => exact h.readerBegin hl timeout p
  | writerBegin t timeout p => exact h.writerBegin hl timeout p
  | wake t => exact h.wake hl
  | timeout t => exact h.timeout (Legal.phase hl)
  | readerEnd t =>
    rcases readerEnd_eq h hl.2 with ⟨-, e, i⟩ | ⟨-, e, i⟩
    · exact ⟨_, e, i⟩
    · exact ⟨_, e, i⟩
  | writerEnd t => exact ⟨_, (writerEnd_eq h hl.2).1, (writerEnd_eq h hl.2).2⟩
  | maximum =>
    refine ⟨_, rfl, ⟨h.nodup, ?_, h.waiting, Int.le_refl _, h.reading, h.writing, h.excl⟩, h.idle⟩
    intro x
    exact (h.th x).congr rfl rfl Iff.rfl rfl

theorem Reach.inv {ok : Sys N → Event N → Prop} {s : Sys N} (h : Reach ok s) : Inv s := by
  induction h with
  | init => exact Inv.init
  | step hr _ hl hs ih =>
    obtain ⟨s'', h1, h2⟩ := ih.step hl
    rw [hs] at h1
    cases h1
    exact h2

end Diminuto.ReaderWriter
