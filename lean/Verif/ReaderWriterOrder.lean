import Verif.ReaderWriterInv

/-!
# Order of grants, batches of readers, and progress, in the Reader Writer model
-/

namespace Diminuto.ReaderWriter

variable {N : Nat}

/-- What `resume` changes. -/
theorem resume_facts {s : Sys N} (h : Core s) :
    s.resume.grants ++ s.resume.lock.queue.map s.ticket = s.grants ++ s.lock.queue.map s.ticket ∧
    s.resume.ticket = s.ticket ∧ s.resume.calls = s.calls ∧ s.resume.readers = s.readers ∧
    s.resume.writers = s.writers ∧ s.resume.phase = s.phase := by
  unfold Sys.resume
  cases hq : s.lock.queue with
  | nil =>
    rw [resume_nil hq]
    simp [Sys.broadcast, hq]
  | cons t q =>
    rcases h.live t (by simp [hq]) with hd | hd
    · rw [resume_reader h.nodup h.live hq hd]
      simp only [Sys.broadcast, Lock.batch, List.append_assoc, ← List.map_append,
        List.takeWhile_append_dropWhile, hq, and_self]
    · rw [resume_writer h.live hq hd]
      simp [Sys.broadcast]

theorem resume_split {s : Sys N} (h : Core s) :
    ∃ ts, s.lock.queue = ts ++ s.resume.lock.queue ∧ s.resume.grants = s.grants ++ ts.map s.ticket := by
  unfold Sys.resume
  cases hq : s.lock.queue with
  | nil =>
    rw [resume_nil hq]
    exact ⟨[], by simp [Sys.broadcast, hq], by simp [Sys.broadcast]⟩
  | cons t q =>
    rcases h.live t (by simp [hq]) with hd | hd
    · rw [resume_reader h.nodup h.live hq hd, ← hq]
      refine ⟨s.lock.queue.takeWhile fun t => s.lock.data t = .reader, ?_, rfl⟩
      simp only [Sys.broadcast, Lock.batch, List.takeWhile_append_dropWhile]
    · rw [resume_writer h.live hq hd]
      exact ⟨[t], by simp [Sys.broadcast], by simp [Sys.broadcast]⟩

/-- The calls granted so far, and those that wait, in order. -/
def Sys.line (s : Sys N) : List Nat := s.grants ++ s.lock.queue.map s.ticket

/-- The order of calls. -/
def Fifo (s : Sys N) : Prop := s.line.Pairwise (· < ·) ∧ ∀ x ∈ s.line, x < s.calls

theorem Fifo.sublist {s s' : Sys N} (h : Fifo s) (hs : s'.line.Sublist s.line) (hc : s.calls ≤ s'.calls) :
    Fifo s' :=
  ⟨h.1.sublist hs, fun x hx => Nat.lt_of_lt_of_le (h.2 x (hs.subset hx)) hc⟩

theorem Fifo.snoc {s s' : Sys N} (h : Fifo s) (hs : s'.line = s.line ++ [s.calls])
    (hc : s'.calls = s.calls + 1) : Fifo s' := by
  refine ⟨?_, ?_⟩
  · rw [hs]
    refine List.pairwise_append.mpr ⟨h.1, by simp, ?_⟩
    intro a ha b hb
    have := h.2 a ha
    simp only [List.mem_singleton] at hb
    omega
  · intro x hx
    rw [hs] at hx
    rcases List.mem_append.mp hx with hx | hx
    · have := h.2 x hx
      omega
    · simp only [List.mem_singleton] at hx
      omega

theorem map_ticket_call {s : Sys N} {t : Fin N} (ht : t ∉ s.lock.queue) :
    s.lock.queue.map (s.call t).ticket = s.lock.queue.map s.ticket := by
  apply List.map_congr_left
  intro x hx
  have : x ≠ t := fun e => ht (e ▸ hx)
  simp [Sys.call, this]

theorem line_call {s : Sys N} {t : Fin N} (ht : t ∉ s.lock.queue) : (s.call t).line = s.line := by
  show s.grants ++ s.lock.queue.map (s.call t).ticket = _
  rw [map_ticket_call ht]
  rfl

theorem line_wait {s : Sys N} (h : Core s) {t : Fin N} (ho : s.phase t = .out) (role : Role) (phase : Phase) :
    ((s.call t).wait t role phase false).line = s.line ++ [s.calls] := by
  obtain ⟨hd, hq, ha⟩ := (h.th t).out ho
  have hc : Core (s.call t) := ⟨h.nodup, h.th, h.waiting, h.maximum, h.reading, h.writing, h.excl⟩
  have e : ((s.call t).wait t role phase false).lock.queue = s.lock.queue ++ [t] := by
    rw [wait_queue hc ho]; rfl
  have e2 : ((s.call t).wait t role phase false).ticket = (s.call t).ticket := rfl
  have e3 : ((s.call t).wait t role phase false).grants = s.grants := rfl
  unfold Sys.line
  rw [e, e2, e3, List.map_append, map_ticket_call hq]
  simp [Sys.call]

/-- A step without priority. -/
def Event.plain : Event N → Prop
  | .readerBegin _ _ p => p = false
  | .writerBegin _ _ p => p = false
  | _ => True

theorem line_returned (s : Sys N) (t : Fin N) (b : Bool) : (s.returned t b).line = s.line := rfl

theorem line_failed (s : Sys N) (t : Fin N) : (s.failed t).line.Sublist s.line :=
  List.Sublist.append (List.Sublist.refl _) ((List.erase_sublist).map _)

theorem line_ended (s : Sys N) (t : Fin N) (b : Bool) : (s.ended t b).line = s.line := by
  cases b <;> rfl

theorem line_resume {s : Sys N} (h : Core s) : s.resume.line = s.line := by
  obtain ⟨h1, h2, -⟩ := resume_facts h
  unfold Sys.line
  rw [h2, h1]

/-- What a step does, in a state of the invariant. -/
inductive Does (s : Sys N) : Event N → Sys N → Prop
  | readerGrant (t timeout p) : s.lock.writing = 0 → s.lock.queue = [] →
      Does s (.readerBegin t timeout p)
        { s.call t with
          lock := { s.lock with reading := s.lock.reading + 1 }
          readers := t :: s.readers
          grants := s.grants ++ [s.calls] }
  | readerPoll (t p) : ¬ (s.lock.writing = 0 ∧ s.lock.queue = []) →
      Does s (.readerBegin t .poll p) (s.call t)
  | readerWait (t timeout p) : ¬ (s.lock.writing = 0 ∧ s.lock.queue = []) → timeout ≠ .poll →
      s.phase t = .out → Does s (.readerBegin t timeout p)
        ((s.call t).wait t .reader (.readerWait (decide (timeout = .finite))) p)
  | writerGrant (t timeout p) : s.lock.reading = 0 → s.lock.writing = 0 → s.lock.queue = [] →
      Does s (.writerBegin t timeout p)
        { s.call t with
          lock := { s.lock with writing := s.lock.writing + 1 }
          writers := t :: s.writers
          grants := s.grants ++ [s.calls] }
  | writerPoll (t p) : ¬ (s.lock.reading = 0 ∧ s.lock.writing = 0) →
      Does s (.writerBegin t .poll p) (s.call t)
  | writerWait (t timeout p) : ¬ (s.lock.reading = 0 ∧ s.lock.writing = 0) → timeout ≠ .poll →
      s.phase t = .out → Does s (.writerBegin t timeout p)
        ((s.call t).wait t .writer (.writerWait (decide (timeout = .finite))) p)
  | again (t) : t ∈ s.lock.queue → Does s (.wake t) { s with asleep := Function.update s.asleep t true }
  | readerWake (t) : t ∉ s.lock.queue → s.lock.data t = .readable → (∃ b, s.phase t = .readerWait b) →
      Does s (.wake t) (s.returned t true)
  | writerWake (t) : t ∉ s.lock.queue → s.lock.data t = .writable → (∃ b, s.phase t = .writerWait b) →
      Does s (.wake t) (s.returned t false)
  | fail (t) : t ∈ s.lock.queue → Does s (.timeout t) (s.failed t)
  | readerLate (t) : t ∉ s.lock.queue → s.lock.data t = .readable → (∃ b, s.phase t = .readerWait b) →
      Does s (.timeout t) (s.returned t true)
  | writerLate (t) : t ∉ s.lock.queue → s.lock.data t = .writable → (∃ b, s.phase t = .writerWait b) →
      Does s (.timeout t) (s.returned t false)
  | readerLeave (t) : t ∈ s.readers → 1 < s.lock.reading → Does s (.readerEnd t) (s.ended t true)
  | readerLast (t) : t ∈ s.readers → s.lock.reading = 1 → Core (s.ended t true) →
      (s.ended t true).lock.reading = 0 → (s.ended t true).lock.writing = 0 →
      Does s (.readerEnd t) (s.ended t true).resume
  | writerLast (t) : t ∈ s.writers → Core (s.ended t false) →
      (s.ended t false).lock.reading = 0 → (s.ended t false).lock.writing = 0 →
      Does s (.writerEnd t) (s.ended t false).resume
  | maximum : Does s .maximum { s with lock := { s.lock with maximum := s.lock.waiting } }

theorem Inv.does {s s' : Sys N} (h : Inv s) {e : Event N} (hl : e.Legal s) (hs : s.step e = some s') :
    Does s e s' := by
  cases e with
  | readerBegin t timeout p =>
    rw [Sys.step, readerBegin_eq h] at hs
    by_cases hc : s.lock.writing = 0 ∧ s.lock.queue = []
    · rw [if_pos hc] at hs
      cases hs
      exact .readerGrant t timeout p hc.1 hc.2
    · rw [if_neg hc] at hs
      by_cases hp : timeout = .poll
      · rw [if_pos hp] at hs
        cases hs
        subst hp
        exact .readerPoll t p hc
      · rw [if_neg hp] at hs
        cases hs
        exact .readerWait t timeout p hc hp hl
  | writerBegin t timeout p =>
    rw [Sys.step, writerBegin_eq h] at hs
    by_cases hc : s.lock.reading = 0 ∧ s.lock.writing = 0
    · rw [if_pos hc] at hs
      cases hs
      exact .writerGrant t timeout p hc.1 hc.2 (h.idle hc.1 hc.2)
    · rw [if_neg hc] at hs
      by_cases hp : timeout = .poll
      · rw [if_pos hp] at hs
        cases hs
        subst hp
        exact .writerPoll t p hc
      · rw [if_neg hp] at hs
        cases hs
        exact .writerWait t timeout p hc hp hl
  | wake t =>
    rw [Sys.step] at hs
    rcases wake_eq h hl with ⟨hq, e⟩ | ⟨hq, hd, hp, e⟩ | ⟨hq, hd, hp, e⟩ <;> rw [e] at hs <;> cases hs
    · exact .again t hq
    · exact .readerWake t hq hd hp
    · exact .writerWake t hq hd hp
  | timeout t =>
    rw [Sys.step] at hs
    rcases timeout_eq h (Legal.phase hl) with ⟨hq, e⟩ | ⟨hq, hd, hp, e⟩ | ⟨hq, hd, hp, e⟩ <;>
      rw [e] at hs <;> cases hs
    · exact .fail t hq
    · exact .readerLate t hq hd hp
    · exact .writerLate t hq hd hp
  | readerEnd t =>
    rw [Sys.step] at hs
    obtain ⟨h1, h2, hc⟩ := h.endedReader hl.2
    rcases readerEnd_eq h hl.2 with ⟨hr, e, -⟩ | ⟨hr, e, -⟩ <;> rw [e] at hs <;> cases hs
    · exact .readerLeave t hl.2 hr
    · exact .readerLast t hl.2 hr hc (by simp [Sys.ended, hr]) (by simpa [Sys.ended] using h2)
  | writerEnd t =>
    rw [Sys.step] at hs
    obtain ⟨h1, h2, hc⟩ := h.endedWriter hl.2
    rw [(writerEnd_eq h hl.2).1] at hs
    cases hs
    exact .writerLast t hl.2 hc (by simpa [Sys.ended] using h1) (by simp [Sys.ended, h2])
  | maximum =>
    rw [Sys.step] at hs
    cases hs
    exact .maximum

theorem Fifo.step {s s' : Sys N} (h : Inv s) (hf : Fifo s) {e : Event N} (hp : e.plain) (hl : e.Legal s)
    (hs : s.step e = some s') : Fifo s' := by
  have hd := h.does hl hs
  cases hd with
  | readerGrant t timeout p hw hq =>
    exact hf.snoc (by simp [Sys.line, hq]) rfl
  | readerPoll t p hc =>
    exact hf.sublist (by rw [line_call ((h.th t).out hl).2.1]) (Nat.le_succ _)
  | readerWait t timeout p hc ht ho =>
    have : p = false := hp
    subst this
    exact hf.snoc (line_wait h.toCore ho _ _) rfl
  | writerGrant t timeout p hr hw hq =>
    exact hf.snoc (by simp [Sys.line, hq]) rfl
  | writerPoll t p hc =>
    exact hf.sublist (by rw [line_call ((h.th t).out hl).2.1]) (Nat.le_succ _)
  | writerWait t timeout p hc ht ho =>
    have : p = false := hp
    subst this
    exact hf.snoc (line_wait h.toCore ho _ _) rfl
  | fail t hq => exact hf.sublist (line_failed s t) (Nat.le_refl _)
  | readerLeave t ht hr => exact hf.sublist (by rw [line_ended]) (Nat.le_refl _)
  | readerLast t ht hr hc h0 h1 =>
    refine hf.sublist (by rw [line_resume hc, line_ended]) ?_
    rw [(resume_facts hc).2.2.1]
    exact Nat.le_refl _
  | writerLast t ht hc h0 h1 =>
    refine hf.sublist (by rw [line_resume hc, line_ended]) ?_
    rw [(resume_facts hc).2.2.1]
    exact Nat.le_refl _
  | _ => exact hf

/-- A reader at the head of the list waits for a writer that has the lock. -/
def Batched (s : Sys N) : Prop := ∀ t q, s.lock.queue = t :: q → s.lock.data t = .reader → s.lock.writing = 1

theorem Batched.resume {s : Sys N} (h : Core s) (hw : s.lock.writing = 0) : Batched s.resume := by
  intro x xs hx hd
  unfold Sys.resume at *
  cases hq : s.lock.queue with
  | nil =>
    rw [resume_nil hq] at hx
    simp [Sys.broadcast, hq] at hx
  | cons t q =>
    rcases h.live t (by simp [hq]) with ht | ht
    · rw [resume_reader h.nodup h.live hq ht] at hx hd
      simp only [Sys.broadcast, Lock.batch] at hx hd
      have hxq : x ∈ s.lock.queue := (List.dropWhile_sublist _).subset (by rw [hx]; simp)
      have h1 : ¬ s.lock.data x = .reader := by
        have := List.head?_dropWhile_not (fun t => decide (s.lock.data t = .reader)) s.lock.queue
        rw [hx] at this
        simpa using this
      rcases h.live x hxq with e | e
      · exact absurd e h1
      · unfold mark at hd
        split at hd
        · simp at hd
        · exact absurd hd h1
    · rw [resume_writer h.live hq ht]
      simp [Sys.broadcast, hw]

/-- A step without priority that is not a timeout. -/
def Event.patient : Event N → Prop
  | .readerBegin _ _ p => p = false
  | .writerBegin _ _ p => p = false
  | .timeout _ => False
  | _ => True

theorem Batched.wait {s : Sys N} (h : Inv s) (hb : Batched s) {t : Fin N} (ho : s.phase t = .out) {role : Role}
    {phase : Phase} (hr : s.lock.queue = [] → role = .reader → s.lock.writing = 1) :
    Batched ((s.call t).wait t role phase false) := by
  intro x xs hx hd
  obtain ⟨-, hq, -⟩ := (h.th t).out ho
  have e : ((s.call t).wait t role phase false).lock.queue = s.lock.queue ++ [t] := by
    rw [wait_queue (h.call t).toCore ho]; rfl
  obtain ⟨r1, r2, r3, r4, r5⟩ := enqueue_rest ((s.call t).lock.dataset t role) t false
  have hd' : (s.lock.dataset t role).data x = .reader := by
    have : ((s.call t).wait t role phase false).lock.data = (s.lock.dataset t role).data := r1
    rw [← this]; exact hd
  have hw : ((s.call t).wait t role phase false).lock.writing = s.lock.writing := r3
  rw [hw]
  rw [e] at hx
  cases hq' : s.lock.queue with
  | nil =>
    rw [hq'] at hx
    simp only [List.nil_append, List.cons.injEq] at hx
    apply hr hq'
    rw [← hx.1] at hd'
    simpa [Lock.dataset] using hd'
  | cons y ys =>
    rw [hq'] at hx hq
    simp only [List.cons_append, List.cons.injEq] at hx
    have hy : y ≠ t := fun e => hq (by simp [e])
    rw [← hx.1] at hd'
    simp only [Lock.dataset, Function.update_of_ne hy] at hd'
    exact hb y ys hq' hd'

theorem Batched.step {s s' : Sys N} (h : Inv s) (hf : Batched s) {e : Event N} (hp : e.patient)
    (hl : e.Legal s) (hs : s.step e = some s') : Batched s' := by
  have hd := h.does hl hs
  cases hd with
  | readerGrant t timeout p hw hq => intro x xs hx; simp [hq] at hx
  | readerWait t timeout p hc ht ho =>
    have : p = false := hp
    subst this
    refine hf.wait h ho (fun hq _ => ?_)
    have := h.excl
    have : s.lock.writing ≠ 0 := fun e => hc ⟨e, hq⟩
    omega
  | writerGrant t timeout p hr hw hq => intro x xs hx; simp [hq] at hx
  | writerWait t timeout p hc ht ho =>
    have : p = false := hp
    subst this
    exact hf.wait h ho (fun _ e => by cases e)
  | readerWake t hq hd hph =>
    intro x xs hx hdx
    have hne : x ≠ t := fun e => hq (by rw [← e]; show x ∈ (s.returned t true).lock.queue; rw [hx]; simp)
    exact hf x xs hx (by simpa [Sys.returned, Lock.dataset, hne] using hdx)
  | writerWake t hq hd hph =>
    intro x xs hx hdx
    have hne : x ≠ t := fun e => hq (by rw [← e]; show x ∈ (s.returned t false).lock.queue; rw [hx]; simp)
    exact hf x xs hx (by simpa [Sys.returned, Lock.dataset, hne] using hdx)
  | fail t hq => exact hp.elim
  | readerLate t hq hd hph => exact hp.elim
  | writerLate t hq hd hph => exact hp.elim
  | readerLast t ht hr hc h0 h1 => exact Batched.resume hc h1
  | writerLast t ht hc h0 h1 => exact Batched.resume hc h1
  | _ => exact hf

/-- A thread that has been given the lock has its call recorded. -/
def Recorded (s : Sys N) : Prop := ∀ t, s.phase t ≠ .out → t ∉ s.lock.queue → s.ticket t ∈ s.grants

theorem Recorded.resume {s : Sys N} (h : Core s) (hr : Recorded s) : Recorded s.resume := by
  obtain ⟨ts, h1, h2⟩ := resume_split h
  obtain ⟨-, e2, -, -, -, e5⟩ := resume_facts h
  intro t ht hq
  rw [e5] at ht
  rw [e2, h2]
  by_cases hm : t ∈ s.lock.queue
  · rw [h1] at hm
    have := (List.mem_append.mp hm).resolve_right hq
    exact List.mem_append_right _ (List.mem_map_of_mem this)
  · exact List.mem_append_left _ (hr t ht hm)

theorem Recorded.wait {s : Sys N} (h : Inv s) (hr : Recorded s) {t : Fin N} (ho : s.phase t = .out)
    (role : Role) (phase : Phase) (p : Bool) : Recorded ((s.call t).wait t role phase p) := by
  intro x hx hq
  rw [wait_queue (h.call t).toCore ho] at hq
  have hq' : x ≠ t ∧ x ∉ s.lock.queue := by
    have e : (s.call t).lock.queue = s.lock.queue := rfl
    rw [e] at hq
    cases p <;> simp at hq <;> grind
  have := hr x (by simpa [Sys.wait, Sys.call, hq'.1] using hx) hq'.2
  simpa [Sys.wait, Sys.call, hq'.1] using this

theorem Recorded.step {s s' : Sys N} (h : Inv s) (hf : Recorded s) {e : Event N}
    (hl : e.Legal s) (hs : s.step e = some s') : Recorded s' := by
  have hd := h.does hl hs
  cases hd with
  | readerGrant t timeout p hw hq =>
    intro x hx hqx
    have hne : x ≠ t := fun e => hx (by rw [e]; exact hl)
    have := hf x hx hqx
    simp [Sys.call, hne, this]
  | readerPoll t p hc =>
    intro x hx hqx
    have hne : x ≠ t := fun e => hx (by rw [e]; exact hl)
    have := hf x hx hqx
    simpa [Sys.call, hne] using this
  | readerWait t timeout p hc ht ho => exact hf.wait h ho _ _ _
  | writerGrant t timeout p hr hw hq =>
    intro x hx hqx
    have hne : x ≠ t := fun e => hx (by rw [e]; exact hl)
    have := hf x hx hqx
    simp [Sys.call, hne, this]
  | writerPoll t p hc =>
    intro x hx hqx
    have hne : x ≠ t := fun e => hx (by rw [e]; exact hl)
    have := hf x hx hqx
    simpa [Sys.call, hne] using this
  | writerWait t timeout p hc ht ho => exact hf.wait h ho _ _ _
  | readerWake t hq hd hph =>
    intro x hx hqx
    have hne : x ≠ t := fun e => hx (by simp [Sys.returned, e])
    exact hf x (by simpa [Sys.returned, hne] using hx) hqx
  | writerWake t hq hd hph =>
    intro x hx hqx
    have hne : x ≠ t := fun e => hx (by simp [Sys.returned, e])
    exact hf x (by simpa [Sys.returned, hne] using hx) hqx
  | readerLate t hq hd hph =>
    intro x hx hqx
    have hne : x ≠ t := fun e => hx (by simp [Sys.returned, e])
    exact hf x (by simpa [Sys.returned, hne] using hx) hqx
  | writerLate t hq hd hph =>
    intro x hx hqx
    have hne : x ≠ t := fun e => hx (by simp [Sys.returned, e])
    exact hf x (by simpa [Sys.returned, hne] using hx) hqx
  | fail t hq =>
    intro x hx hqx
    have hne : x ≠ t := fun e => hx (by simp [Sys.failed, e])
    refine hf x (by simpa [Sys.failed, hne] using hx) ?_
    simpa [Sys.failed, dequeue, Lock.dataset, List.mem_erase_of_ne hne] using hqx
  | readerLast t ht hr hc h0 h1 => exact Recorded.resume hc hf
  | writerLast t ht hc h0 h1 => exact Recorded.resume hc hf
  | _ => exact hf

/-- A thread that is in a begin function does not hold the lock. -/
def Flat (s : Sys N) : Prop := ∀ t, s.phase t ≠ .out → t ∉ s.readers ∧ t ∉ s.writers

/-- A thread that holds the lock does not ask for it again. -/
def Unnested (s : Sys N) : Event N → Prop
  | .readerBegin t _ _ => t ∉ s.readers ∧ t ∉ s.writers
  | .writerBegin t _ _ => t ∉ s.readers ∧ t ∉ s.writers
  | _ => True

theorem Flat.step {s s' : Sys N} (h : Inv s) (hf : Flat s) {e : Event N} (hp : Unnested s e)
    (hl : e.Legal s) (hs : s.step e = some s') : Flat s' := by
  have hd := h.does hl hs
  intro x hx
  cases hd with
  | readerGrant t timeout p hw hq =>
    have hne : x ≠ t := fun e => hx (by rw [e]; exact hl)
    have := hf x hx
    simpa [hne, Sys.call] using this
  | readerWait t timeout p hc ht ho =>
    by_cases hne : x = t
    · subst hne; exact hp
    · exact hf x (by simpa [Sys.wait, hne, Sys.call] using hx)
  | writerGrant t timeout p hr hw hq =>
    have hne : x ≠ t := fun e => hx (by rw [e]; exact hl)
    have := hf x hx
    simpa [hne, Sys.call] using this
  | writerWait t timeout p hc ht ho =>
    by_cases hne : x = t
    · subst hne; exact hp
    · exact hf x (by simpa [Sys.wait, hne, Sys.call] using hx)
  | readerWake t hq hd hph =>
    have hne : x ≠ t := fun e => hx (by simp [Sys.returned, e])
    have := hf x (by simpa [Sys.returned, hne] using hx)
    simpa [Sys.returned, hne] using this
  | writerWake t hq hd hph =>
    have hne : x ≠ t := fun e => hx (by simp [Sys.returned, e])
    have := hf x (by simpa [Sys.returned, hne] using hx)
    simpa [Sys.returned, hne] using this
  | fail t hq =>
    have hne : x ≠ t := fun e => hx (by simp [Sys.failed, e])
    exact hf x (by simpa [Sys.failed, hne] using hx)
  | readerLate t hq hd hph =>
    have hne : x ≠ t := fun e => hx (by simp [Sys.returned, e])
    have := hf x (by simpa [Sys.returned, hne] using hx)
    simpa [Sys.returned, hne] using this
  | writerLate t hq hd hph =>
    have hne : x ≠ t := fun e => hx (by simp [Sys.returned, e])
    have := hf x (by simpa [Sys.returned, hne] using hx)
    simpa [Sys.returned, hne] using this
  | readerLeave t ht hr =>
    obtain ⟨h1, h2⟩ := hf x hx
    exact ⟨fun m => h1 (List.mem_of_mem_erase m), h2⟩
  | readerLast t ht hr hc h0 h1 =>
    obtain ⟨-, -, -, e3, e4, e5⟩ := resume_facts hc
    rw [e5] at hx
    rw [e3, e4]
    obtain ⟨h1, h2⟩ := hf x hx
    exact ⟨fun m => h1 (List.mem_of_mem_erase m), h2⟩
  | writerLast t ht hc h0 h1 =>
    obtain ⟨-, -, -, e3, e4, e5⟩ := resume_facts hc
    rw [e5] at hx
    rw [e3, e4]
    obtain ⟨h1, h2⟩ := hf x hx
    exact ⟨h1, fun m => h2 (List.mem_of_mem_erase m)⟩
  | _ => exact hf x hx

/-- How much is left to do for those that hold the lock or wait for it. -/
def Sys.todo (s : Sys N) : Nat :=
  3 * s.lock.queue.length + 2 * (count s.lock.data .readable + count s.lock.data .writable) +
    s.readers.length + s.writers.length

/-- A step of a thread that holds the lock, giving it up, or of a thread that has been given it. -/
def Useful (s : Sys N) : Event N → Prop
  | .wake t => s.asleep t = false ∧ t ∉ s.lock.queue
  | .readerEnd _ => True
  | .writerEnd _ => True
  | _ => False

theorem todo_resume {s : Sys N} (h : Core s) (hr : s.lock.reading = 0) (hw : s.lock.writing = 0) :
    s.resume.todo ≤ s.todo := by
  obtain ⟨i, k⟩ := h.resume hr hw
  obtain ⟨e1, e2, -, e3, e4, e5⟩ := resume_facts h
  have r1 := h.reading
  have w1 := h.writing
  have r2 := i.reading
  have w2 := i.writing
  have ex := i.excl
  rw [e3] at r2
  rw [e4] at w2
  have hlen : s.resume.lock.queue.length + (s.resume.lock.reading + s.resume.lock.writing).toNat ≤
      s.lock.queue.length := by
    unfold Sys.resume
    cases hq : s.lock.queue with
    | nil =>
      rw [resume_nil hq]
      simp [Sys.broadcast, hq, hr, hw]
    | cons t q =>
      rcases h.live t (by simp [hq]) with hd | hd
      · rw [resume_reader h.nodup h.live hq hd]
        simp only [Sys.broadcast, Lock.batch, hr, hw]
        have : s.lock.queue.length =
            (s.lock.queue.takeWhile fun t => s.lock.data t = .reader).length +
            (s.lock.queue.dropWhile fun t => s.lock.data t = .reader).length := by
          rw [← List.length_append, List.takeWhile_append_dropWhile]
        rw [← hq]
        omega
      · rw [resume_writer h.live hq hd]
        simp [Sys.broadcast, hr, hw]
  unfold Sys.todo
  rw [e3, e4]
  omega

theorem todo_step {s s' : Sys N} (h : Inv s) {e : Event N} (hu : Useful s e)
    (hl : e.Legal s) (hs : s.step e = some s') : s'.todo < s.todo := by
  have hd := h.does hl hs
  cases hd with
  | again t hq => exact absurd hq hu.2
  | readerWake t hq hd hph =>
    have c1 := count_update s.lock.data t .readable .running
    have c2 := count_update s.lock.data t .writable .running
    simp only [hd, reduceCtorEq, if_false, if_true] at c1 c2
    simp only [Sys.todo, Sys.returned, Lock.dataset, if_true, List.length_cons]
    omega
  | writerWake t hq hd hph =>
    have c1 := count_update s.lock.data t .readable .running
    have c2 := count_update s.lock.data t .writable .running
    simp only [hd, reduceCtorEq, if_false, if_true] at c1 c2
    simp only [Sys.todo, Sys.returned, Lock.dataset, Bool.false_eq_true, if_false, List.length_cons]
    omega
  | readerLeave t ht hr =>
    have hlen := List.length_erase_of_mem ht
    have hpos := List.length_pos_of_mem ht
    simp only [Sys.todo, Sys.ended, if_true]
    omega
  | readerLast t ht hr hc h0 h1 =>
    have hlen := List.length_erase_of_mem ht
    have hpos := List.length_pos_of_mem ht
    refine Nat.lt_of_le_of_lt (todo_resume hc h0 h1) ?_
    simp only [Sys.todo, Sys.ended, if_true]
    omega
  | writerLast t ht hc h0 h1 =>
    have hlen := List.length_erase_of_mem ht
    have hpos := List.length_pos_of_mem ht
    refine Nat.lt_of_le_of_lt (todo_resume hc h0 h1) ?_
    simp only [Sys.todo, Sys.ended, Bool.false_eq_true, if_false]
    omega
  | _ => exact absurd hu id

theorem Th.readable {s : Sys N} {t : Fin N} (h : Th s t) (hd : s.lock.data t = .readable) :
    s.phase t ≠ .out ∧ t ∉ s.lock.queue ∧ s.asleep t = false := by
  unfold Th at h
  split at h
  · simp [hd] at h
  · rename_i b hp
    rcases h with h | h
    · simp [hd] at h
    · exact ⟨by rw [hp]; simp, h.1, h.2.2⟩
  · simp [hd] at h

theorem Th.writable {s : Sys N} {t : Fin N} (h : Th s t) (hd : s.lock.data t = .writable) :
    s.phase t ≠ .out ∧ t ∉ s.lock.queue ∧ s.asleep t = false := by
  unfold Th at h
  split at h
  · simp [hd] at h
  · simp [hd] at h
  · rename_i b hp
    rcases h with h | h
    · simp [hd] at h
    · exact ⟨by rw [hp]; simp, h.1, h.2.2⟩

/-- Somebody has the lock, or has been given it and is awake. -/
theorem Inv.busy {s : Sys N} (h : Inv s) (hq : s.lock.reading ≠ 0 ∨ s.lock.writing ≠ 0) :
    ∃ t, t ∈ s.readers ∨ t ∈ s.writers ∨
      ((s.lock.data t = .readable ∨ s.lock.data t = .writable) ∧ s.phase t ≠ .out ∧ t ∉ s.lock.queue ∧
        s.asleep t = false) := by
  have hr := h.reading
  have hw := h.writing
  by_cases h1 : s.readers = []
  · by_cases h2 : s.writers = []
    · by_cases h3 : 0 < count s.lock.data .readable
      · obtain ⟨t, ht⟩ := exists_of_count_pos h3
        exact ⟨t, Or.inr (Or.inr ⟨Or.inl ht, (h.th t).readable ht⟩)⟩
      · have h4 : 0 < count s.lock.data .writable := by
          simp only [h1, h2, List.length_nil] at hr hw
          omega
        obtain ⟨t, ht⟩ := exists_of_count_pos h4
        exact ⟨t, Or.inr (Or.inr ⟨Or.inr ht, (h.th t).writable ht⟩)⟩
    · obtain ⟨t, ht⟩ := List.exists_mem_of_ne_nil _ h2
      exact ⟨t, Or.inr (Or.inl ht)⟩
  · obtain ⟨t, ht⟩ := List.exists_mem_of_ne_nil _ h1
    exact ⟨t, Or.inl ht⟩

theorem Inv.useful {s : Sys N} (h : Inv s) (hf : Flat s) (hb : s.todo ≠ 0) :
    ∃ e, Useful s e ∧ e.Legal s := by
  have hr := h.reading
  have hw := h.writing
  have hq : s.lock.reading ≠ 0 ∨ s.lock.writing ≠ 0 := by
    by_cases hq : s.lock.queue = []
    · unfold Sys.todo at hb
      simp only [hq, List.length_nil] at hb
      omega
    · by_cases h1 : s.lock.reading = 0
      · by_cases h2 : s.lock.writing = 0
        · exact absurd (h.idle h1 h2) hq
        · exact Or.inr h2
      · exact Or.inl h1
  have out : ∀ t, (t ∈ s.readers ∨ t ∈ s.writers) → s.phase t = .out := by
    intro t ht
    by_contra hc
    obtain ⟨a, b⟩ := hf t hc
    rcases ht with ht | ht
    · exact a ht
    · exact b ht
  obtain ⟨t, ht | ht | ⟨-, hp, hn, ha⟩⟩ := h.busy hq
  · exact ⟨.readerEnd t, trivial, out t (Or.inl ht), ht⟩
  · exact ⟨.writerEnd t, trivial, out t (Or.inr ht), ht⟩
  · exact ⟨.wake t, ⟨ha, hn⟩, hp⟩

end Diminuto.ReaderWriter
