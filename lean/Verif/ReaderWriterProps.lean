import Verif.ReaderWriterOrder

/-!
# Properties of the Reader Writer module

* C34 mutual exclusion, and no contract fails: `rw_mutual_exclusion`, `rw_counters`, `rw_never_fails`.
* C35 order: `rw_fifo`, `rw_no_overtaking`, `rw_grant_recorded`, `rw_reader_waits_for_writer`,
  `rw_readers_enter_together`.
* C36 no lost wake-up: `rw_no_lost_wakeup`, `rw_given_is_awake`, `rw_serves_everyone`.
* C37 timeouts: `rw_timeout_partial`, `rw_poll_partial`, `rw_timeout_counterexample`.
* C59 cancellation: `rw_cancel_counterexample`, `rw_cancel_leak_counterexample`.
-/

namespace Diminuto.ReaderWriter

variable {N : Nat}

/-- Any step. -/
abbrev any : Sys N → Event N → Prop := fun _ _ => True

/-- Steps without priority. -/
abbrev plain : Sys N → Event N → Prop := fun _ e => e.plain

/-- Steps without priority and without timeouts. -/
abbrev patient : Sys N → Event N → Prop := fun _ e => e.patient

instance (s : Sys N) : (e : Event N) → Decidable (e.Legal s)
  | .readerBegin t _ _ => inferInstanceAs (Decidable (s.phase t = .out))
  | .writerBegin t _ _ => inferInstanceAs (Decidable (s.phase t = .out))
  | .wake t => inferInstanceAs (Decidable (s.phase t ≠ .out))
  | .timeout t => inferInstanceAs (Decidable (s.phase t = .readerWait true ∨ s.phase t = .writerWait true))
  | .readerEnd t => inferInstanceAs (Decidable (s.phase t = .out ∧ t ∈ s.readers))
  | .writerEnd t => inferInstanceAs (Decidable (s.phase t = .out ∧ t ∈ s.writers))
  | .maximum => inferInstanceAs (Decidable True)

/-- A sequence of legal steps. -/
def run (s : Sys N) : List (Event N) → Option (Sys N)
  | [] => some s
  | e :: es => if e.Legal s then (s.step e).bind fun s => run s es else none

theorem run_reach {ok : Sys N → Event N → Prop} : ∀ (es : List (Event N)) {s s' : Sys N}, Reach ok s →
    (∀ s, ∀ e ∈ es, ok s e) → run s es = some s' → Reach ok s'
  | [], s, s', h, _, hr => by cases hr; exact h
  | e :: es, s, s', h, ho, hr => by
    unfold run at hr
    by_cases hl : e.Legal s
    · rw [if_pos hl] at hr
      cases hs : s.step e with
      | none => rw [hs] at hr; simp at hr
      | some s1 =>
        rw [hs] at hr
        exact run_reach es (h.step (ho s e (by simp)) hl hs) (fun s e he => ho s e (by simp [he])) hr
    · rw [if_neg hl] at hr
      cases hr

/-! ## C34 -/

/-- Whatever the threads do: at most one writer is between its begin and its end, and then no reader
is between its begin and its end. -/
theorem rw_mutual_exclusion {s : Sys N} (h : Reach any s) :
    s.writers.length ≤ 1 ∧ (s.writers ≠ [] → s.readers = []) := by
  have hr := h.inv.reading
  have hw := h.inv.writing
  have he := h.inv.excl
  refine ⟨by omega, fun hne => ?_⟩
  have := List.length_pos_iff.mpr hne
  exact List.eq_nil_of_length_eq_zero (by omega)

/-- The counters are right: each counts the threads that hold the lock or have been given it; a writer
that has been given the lock excludes everyone else, even before it returns from its begin. -/
theorem rw_counters {s : Sys N} (h : Reach any s) :
    s.lock.reading = s.readers.length + ((List.finRange N).countP fun t => s.lock.data t = .readable) ∧
    s.lock.writing = s.writers.length + ((List.finRange N).countP fun t => s.lock.data t = .writable) ∧
    s.lock.waiting = s.lock.queue.length ∧ s.lock.waiting ≤ s.lock.maximum ∧
    (∀ t, s.lock.data t = .writable → s.writers = [] ∧ s.readers = []) ∧
    (∀ t, s.lock.data t = .readable → s.writers = []) := by
  have hr := h.inv.reading
  have hw := h.inv.writing
  have he := h.inv.excl
  refine ⟨hr, hw, h.inv.waiting, h.inv.maximum, fun t ht => ?_, fun t ht => ?_⟩
  · have := count_pos ht
    exact ⟨List.eq_nil_of_length_eq_zero (by omega), List.eq_nil_of_length_eq_zero (by omega)⟩
  · have := count_pos ht
    exact List.eq_nil_of_length_eq_zero (by omega)

/-- No contract fails in threads that obey the protocol, and the audit succeeds. -/
theorem rw_never_fails {s : Sys N} (h : Reach any s) {e : Event N} (hl : e.Legal s) :
    ∃ s', s.step e = some s' ∧ Reach any s' := by
  obtain ⟨s', hs, -⟩ := h.inv.step hl
  exact ⟨s', hs, h.step trivial hl hs⟩

/-- Two readers hold the lock, a writer waits, a third reader waits behind it; the readers end, the writer
holds the lock. -/
example : ∃ s : Sys 4, Reach any s ∧ s.writers = [2] ∧ s.readers = [] ∧ s.lock.queue = [3] := by
  have h : (run (Sys.init 4) [.readerBegin 0 .infinity false, .readerBegin 1 .infinity false,
      .writerBegin 2 .finite false, .readerBegin 3 .infinity false, .readerEnd 0, .readerEnd 1,
      .wake 2]).map (fun s => (s.writers, s.readers, s.lock.queue)) = some ([2], [], [3]) := by decide
  obtain ⟨s, h1, h2⟩ := Option.map_eq_some_iff.mp h
  simp only [Prod.mk.injEq] at h2
  exact ⟨s, run_reach _ .init (by simp) h1, h2⟩

/-! ## C35 -/

/-- Without priority, the lock is granted in the order of the calls, whether some time out or
not. -/
theorem rw_fifo {s : Sys N} (h : Reach plain s) : s.grants.Pairwise (· < ·) := by
  have : Fifo s := by
    induction h with
    | init => exact ⟨List.Pairwise.nil, by simp [Sys.line, Sys.init]⟩
    | step hr ho hl hs ih => exact ih.step hr.inv ho hl hs
  exact this.1.sublist (List.sublist_append_left _ _)

/-- Without priority, no call has been granted the lock ahead of one that still waits
and came earlier; and those that wait are in the order of their calls. -/
theorem rw_no_overtaking {s : Sys N} (h : Reach plain s) :
    (∀ t ∈ s.lock.queue, ∀ g ∈ s.grants, g < s.ticket t) ∧
    (s.lock.queue.map s.ticket).Pairwise (· < ·) := by
  have : Fifo s := by
    induction h with
    | init => exact ⟨List.Pairwise.nil, by simp [Sys.line, Sys.init]⟩
    | step hr ho hl hs ih => exact ih.step hr.inv ho hl hs
  have := List.pairwise_append.mp this.1
  exact ⟨fun t ht g hg => this.2.2 g hg _ (List.mem_map_of_mem ht), this.2.1⟩

/-- A begin that succeeds has been granted the lock: its number is among the granted ones. -/
theorem rw_grant_recorded {s s' : Sys N} (h : Reach any s) {e : Event N} (hl : e.Legal s)
    (hs : s.step e = some s') {t : Fin N} (hg : s'.readers = t :: s.readers ∨ s'.writers = t :: s.writers) :
    s'.ticket t ∈ s'.grants := by
  have hrec : Recorded s := by
    clear hl hs hg e
    induction h with
    | init => intro t ht; simp [Sys.init] at ht
    | step hr ho hl hs ih => exact ih.step hr.inv hl hs
  have hne : ∀ {α : Type} {x : α} {l : List α}, l ≠ x :: l := by
    intro α x l e
    have := congrArg List.length e
    simp at this
  have hnr : ∀ {α : Type} [DecidableEq α] {x y : α} {l : List α}, l.erase y ≠ x :: l := by
    intro α _ x y l e
    have h1 := congrArg List.length e
    have h2 := List.length_erase_le (a := y) (l := l)
    simp only [List.length_cons] at h1
    omega
  have hd := h.inv.does hl hs
  cases hd with
  | readerGrant x timeout p hw hq =>
    rcases hg with hg | hg
    · simp only [List.cons.injEq, and_true] at hg
      subst hg
      simp [Sys.call]
    · exact absurd hg hne
  | writerGrant x timeout p hr hw hq =>
    rcases hg with hg | hg
    · exact absurd hg hne
    · simp only [List.cons.injEq, and_true] at hg
      subst hg
      simp [Sys.call]
  | readerWake x hq hdx hp =>
    rcases hg with hg | hg
    · simp only [Sys.returned, if_true, List.cons.injEq, and_true] at hg
      subst hg
      exact hrec x hl hq
    · exact absurd hg hne
  | writerWake x hq hdx hp =>
    rcases hg with hg | hg
    · exact absurd hg hne
    · simp only [Sys.returned, Bool.false_eq_true, if_false, List.cons.injEq, and_true] at hg
      subst hg
      exact hrec x hl hq
  | readerLate x hq hdx hp =>
    rcases hg with hg | hg
    · simp only [Sys.returned, if_true, List.cons.injEq, and_true] at hg
      subst hg
      exact hrec x (Legal.phase hl) hq
    · exact absurd hg hne
  | writerLate x hq hdx hp =>
    rcases hg with hg | hg
    · exact absurd hg hne
    · simp only [Sys.returned, Bool.false_eq_true, if_false, List.cons.injEq, and_true] at hg
      subst hg
      exact hrec x (Legal.phase hl) hq
  | readerLeave x hx hr =>
    rcases hg with hg | hg
    · exact absurd hg hnr
    · exact absurd hg hne
  | readerLast x hx hr hc h0 h1 =>
    obtain ⟨-, -, -, e3, e4, -⟩ := resume_facts hc
    rw [e3, e4] at hg
    rcases hg with hg | hg
    · exact absurd hg hnr
    · exact absurd hg hne
  | writerLast x hx hc h0 h1 =>
    obtain ⟨-, -, -, e3, e4, -⟩ := resume_facts hc
    rw [e3, e4] at hg
    rcases hg with hg | hg
    · exact absurd hg hne
    · exact absurd hg hnr
  | _ =>
    rcases hg with hg | hg
    · exact absurd hg hne
    · exact absurd hg hne

/-- Without priority and timeouts, a reader that is the first in the line waits only because a
writer has the lock, or has been given it. -/
theorem rw_reader_waits_for_writer {s : Sys N} (h : Reach patient s) {t : Fin N} {q : List (Fin N)}
    (hq : s.lock.queue = t :: q) (hd : s.lock.data t = .reader) :
    ∃ w, w ∈ s.writers ∨ s.lock.data w = .writable := by
  have hb : Batched s := by
    clear hq hd
    induction h with
    | init => intro t q hq; simp [Sys.init] at hq
    | step hr ho hl hs ih => exact ih.step hr.inv ho hl hs
  have h1 := hb t q hq hd
  have hw := h.inv.writing
  by_cases hn : s.writers = []
  · rw [hn] at hw
    simp only [List.length_nil] at hw
    obtain ⟨w, hw⟩ := exists_of_count_pos (d := s.lock.data) (r := .writable) (by omega)
    exact ⟨w, Or.inr hw⟩
  · obtain ⟨w, hw⟩ := List.exists_mem_of_ne_nil _ hn
    exact ⟨w, Or.inl hw⟩

/-- When the lock becomes free while readers are at the head of the line, all of them up to the first
writer are given the lock, and nobody else. -/
theorem rw_readers_enter_together {s s' : Sys N} (h : Reach any s) {t : Fin N}
    (hs : s.phase t = .out ∧ t ∈ s.writers ∧ s.step (.writerEnd t) = some s' ∨
      s.phase t = .out ∧ s.readers = [t] ∧ s.lock.reading = 1 ∧ s.step (.readerEnd t) = some s')
    {rs q : List (Fin N)} (hne : rs ≠ []) (hq : s.lock.queue = rs ++ q)
    (hr : ∀ x ∈ rs, s.lock.data x = .reader) (hw : ∀ x ∈ q.head?, s.lock.data x = .writer) :
    (∀ x, s'.lock.data x = .readable ↔ x ∈ rs) ∧ (∀ x, s'.lock.data x ≠ .writable) ∧
    s'.lock.queue = q ∧ s'.lock.reading = rs.length ∧ s'.lock.writing = 0 ∧
    ∀ x ∈ rs, s'.asleep x = false := by
  have key : ∀ u : Sys N, Core u → u.lock.queue = s.lock.queue → u.lock.data = s.lock.data →
      u.lock.reading = 0 → u.lock.writing = 0 → s' = u.resume →
      (∀ x, s'.lock.data x = .readable ↔ x ∈ rs) ∧ (∀ x, s'.lock.data x ≠ .writable) ∧
      s'.lock.queue = q ∧ s'.lock.reading = rs.length ∧ s'.lock.writing = 0 ∧
      ∀ x ∈ rs, s'.asleep x = false := by
    intro u hc hqu hdu h0 h1 he
    obtain ⟨y, ys, hy⟩ := List.exists_cons_of_ne_nil hne
    have htake : (u.lock.queue.takeWhile fun t => u.lock.data t = .reader) = rs := by
      rw [hqu, hdu, hq, List.takeWhile_append_of_pos (by simpa using hr)]
      cases q with
      | nil => simp
      | cons z zs => simp [hw z (by simp)]
    have hdrop : (u.lock.queue.dropWhile fun t => u.lock.data t = .reader) = q := by
      rw [hqu, hdu, hq, List.dropWhile_append_of_pos (by simpa using hr)]
      cases q with
      | nil => simp
      | cons z zs => simp [hw z (by simp)]
    have hi := (hc.resume h0 h1).1
    have e : u.resume.lock = u.lock.batch := by
      unfold Sys.resume
      rw [resume_reader hc.nodup hc.live (t := y) (q := ys ++ q) (by rw [hqu, hq, hy]; rfl)
        (by rw [hdu]; exact hr y (by simp [hy]))]
      rfl
    have r0 := hc.reading
    have w0 := hc.writing
    have nr : ∀ x, u.lock.data x ≠ .readable := by
      intro x hx
      have := count_pos hx
      omega
    have nw : ∀ x, u.lock.data x ≠ .writable := by
      intro x hx
      have := count_pos hx
      omega
    have e' := e
    simp only [Lock.batch, htake, hdrop] at e'
    subst he
    have hdata : ∀ x, u.resume.lock.data x = mark u.lock.data rs .readable x := by
      intro x; rw [e']
    refine ⟨fun x => ?_, fun x => ?_, by rw [e'], by rw [e', h0]; simp, by rw [e']; exact h1, fun x hx => ?_⟩
    · rw [hdata]
      unfold mark
      by_cases hx : x ∈ rs
      · simp [hx]
      · simp [hx, nr x]
    · rw [hdata]
      unfold mark
      by_cases hx : x ∈ rs
      · simp [hx]
      · simp [hx, nw x]
    · exact ((hi.th x).readable (by rw [hdata]; simp [mark, hx])).2.2
  rcases hs with ⟨hp, hm, hs⟩ | ⟨hp, hm, h1, hs⟩
  · have hd := h.inv.does (e := .writerEnd t) ⟨hp, hm⟩ hs
    cases hd with
    | writerLast _ ht hc h0 h1 => exact key _ hc rfl rfl h0 h1 rfl
  · have hd := h.inv.does (e := .readerEnd t) ⟨hp, by simp [hm]⟩ hs
    cases hd with
    | readerLeave _ ht hr' => omega
    | readerLast _ ht hr' hc h0 h1 => exact key _ hc rfl rfl h0 h1 rfl

/-- A writer holds the lock; two readers, a writer and a reader wait; the writer ends: the two readers
enter, the others wait on. -/
example : ∃ s : Sys 5, Reach patient s ∧ s.readers = [2, 1] ∧ s.lock.queue = [3, 4] ∧ s.grants = [0, 1, 2] := by
  have h : (run (Sys.init 5) [.writerBegin 0 .infinity false, .readerBegin 1 .infinity false,
      .readerBegin 2 .infinity false, .writerBegin 3 .infinity false, .readerBegin 4 .infinity false,
      .writerEnd 0, .wake 1, .wake 2]).map (fun s => (s.readers, s.lock.queue, s.grants)) =
      some ([2, 1], [3, 4], [0, 1, 2]) := by decide
  obtain ⟨s, h1, h2⟩ := Option.map_eq_some_iff.mp h
  simp only [Prod.mk.injEq] at h2
  refine ⟨s, run_reach _ .init ?_ h1, h2⟩
  intro s e he
  simp only [List.mem_cons, List.not_mem_nil, or_false] at he
  rcases he with e | e | e | e | e | e | e | e <;> subst e <;> simp [Event.patient]

/-! ## C36 -/

/-- If somebody waits, then somebody holds the lock, or has been given it and is awake: the lock is
never free with somebody left waiting. -/
theorem rw_no_lost_wakeup {s : Sys N} (h : Reach any s) {t : Fin N} (ht : s.phase t ≠ .out) :
    ∃ x, x ∈ s.readers ∨ x ∈ s.writers ∨
      ((s.lock.data x = .readable ∨ s.lock.data x = .writable) ∧ s.phase x ≠ .out ∧ s.asleep x = false) := by
  have hth := h.inv.th t
  have : s.lock.reading ≠ 0 ∨ s.lock.writing ≠ 0 := by
    have hr := h.inv.reading
    have hw := h.inv.writing
    by_contra hc
    rw [not_or, not_not, not_not] at hc
    have hq := h.inv.idle hc.1 hc.2
    unfold Th at hth
    cases hp : s.phase t with
    | out => exact ht hp
    | readerWait b =>
      rw [hp] at hth
      simp only [hq, List.not_mem_nil, false_and, not_false_eq_true, true_and, false_or] at hth
      have := count_pos hth.1
      omega
    | writerWait b =>
      rw [hp] at hth
      simp only [hq, List.not_mem_nil, false_and, not_false_eq_true, true_and, false_or] at hth
      have := count_pos hth.1
      omega
  obtain ⟨x, hx | hx | ⟨a, b, -, c⟩⟩ := h.inv.busy this
  · exact ⟨x, Or.inl hx⟩
  · exact ⟨x, Or.inr (Or.inl hx)⟩
  · exact ⟨x, Or.inr (Or.inr ⟨a, b, c⟩)⟩

/-- A thread that has been given the lock is awake, and its begin succeeds in its next step,
be it a timeout or not. -/
theorem rw_given_is_awake {s : Sys N} (h : Reach any s) {t : Fin N}
    (hd : s.lock.data t = .readable ∨ s.lock.data t = .writable) :
    s.asleep t = false ∧ s.phase t ≠ .out ∧
    (∀ s', s.step (.wake t) = some s' ∨ s.step (.timeout t) = some s' →
      s'.phase t = .out ∧
      (s.lock.data t = .readable → s'.readers = t :: s.readers) ∧
      (s.lock.data t = .writable → s'.writers = t :: s.writers)) := by
  have hth := h.inv.th t
  have hp : s.phase t ≠ .out ∧ t ∉ s.lock.queue ∧ s.asleep t = false := by
    rcases hd with hd | hd
    · exact hth.readable hd
    · exact hth.writable hd
  refine ⟨hp.2.2, hp.1, ?_⟩
  intro s' hs
  have hret : s' = s.returned t true ∧ s.lock.data t = .readable ∨
      s' = s.returned t false ∧ s.lock.data t = .writable := by
    rcases hs with hs | hs
    · rcases wake_eq h.inv hp.1 with ⟨hq, e⟩ | ⟨hq, hd, -, e⟩ | ⟨hq, hd, -, e⟩
      · exact absurd hq hp.2.1
      · rw [Sys.step, e] at hs; cases hs; exact Or.inl ⟨rfl, hd⟩
      · rw [Sys.step, e] at hs; cases hs; exact Or.inr ⟨rfl, hd⟩
    · rcases timeout_eq h.inv hp.1 with ⟨hq, e⟩ | ⟨hq, hd, -, e⟩ | ⟨hq, hd, -, e⟩
      · exact absurd hq hp.2.1
      · rw [Sys.step, e] at hs; cases hs; exact Or.inl ⟨rfl, hd⟩
      · rw [Sys.step, e] at hs; cases hs; exact Or.inr ⟨rfl, hd⟩
  rcases hret with ⟨e, hd'⟩ | ⟨e, hd'⟩ <;> subst e <;> simp [Sys.returned, hd']

/-- Steps of threads that have been given the lock, and ends. -/
inductive Serve : Sys N → Sys N → Prop
  | wake {s s' : Sys N} {t : Fin N} : s.asleep t = false → t ∉ s.lock.queue → s.phase t ≠ .out →
      s.step (.wake t) = some s' → Serve s s'
  | readerEnd {s s' : Sys N} {t : Fin N} : s.phase t = .out → t ∈ s.readers →
      s.step (.readerEnd t) = some s' → Serve s s'
  | writerEnd {s s' : Sys N} {t : Fin N} : s.phase t = .out → t ∈ s.writers →
      s.step (.writerEnd t) = some s' → Serve s s'

theorem Serve.useful {s s' : Sys N} (h : Serve s s') :
    ∃ e, Useful s e ∧ e.Legal s ∧ s.step e = some s' := by
  cases h with
  | @wake t h1 h2 h3 h4 => exact ⟨.wake t, ⟨h1, h2⟩, h3, h4⟩
  | @readerEnd t h1 h2 h3 => exact ⟨.readerEnd t, trivial, ⟨h1, h2⟩, h3⟩
  | @writerEnd t h1 h2 h3 => exact ⟨.writerEnd t, trivial, ⟨h1, h2⟩, h3⟩

/-- If no thread asks for the lock while it has it, then everyone is served: as long as anybody
waits or holds the lock there is a thread that is awake and can make a step, either return from its
begin with the lock or give up the lock; and such steps cannot go on forever.  (Nobody stops waiting in
such a step other than by having been given the lock.) -/
theorem rw_serves_everyone {s : Sys N} (h : Reach Unnested s) :
    ((∃ t, s.phase t ≠ .out ∨ t ∈ s.readers ∨ t ∈ s.writers) → ∃ s', Serve s s') ∧
    (¬ ∃ f : Nat → Sys N, f 0 = s ∧ ∀ n, Serve (f n) (f (n + 1))) ∧
    (∀ s', Serve s s' → Reach Unnested s' ∧ ∀ t, s.phase t ≠ .out → s'.phase t = .out →
      (t ∈ s'.readers ∨ t ∈ s'.writers)) := by
  have hflat : Flat s := by
    induction h with
    | init => intro t ht; simp [Sys.init] at ht
    | step hr ho hl hs ih => exact ih.step hr.inv ho hl hs
  have hreach : ∀ {s s' : Sys N}, Reach Unnested s → Serve s s' → Reach Unnested s' := by
    intro s s' h hs
    cases hs with
    | wake h1 h2 h3 h4 => exact h.step (e := .wake _) trivial h3 h4
    | readerEnd h1 h2 h3 => exact h.step (e := .readerEnd _) trivial ⟨h1, h2⟩ h3
    | writerEnd h1 h2 h3 => exact h.step (e := .writerEnd _) trivial ⟨h1, h2⟩ h3
  refine ⟨?_, ?_, ?_⟩
  · rintro ⟨t, ht⟩
    have htodo : s.todo ≠ 0 := by
      unfold Sys.todo
      rcases ht with ht | ht | ht
      · have hth := h.inv.th t
        unfold Th at hth
        split at hth
        · rename_i hp; exact absurd hp ht
        · rcases hth with ⟨a, -⟩ | ⟨-, a, -⟩
          · have := List.length_pos_of_mem a; omega
          · have := count_pos a; omega
        · rcases hth with ⟨a, -⟩ | ⟨-, a, -⟩
          · have := List.length_pos_of_mem a; omega
          · have := count_pos a; omega
      · have := List.length_pos_of_mem ht; omega
      · have := List.length_pos_of_mem ht; omega
    obtain ⟨e, hu, hl⟩ := h.inv.useful hflat htodo
    obtain ⟨s', hs, -⟩ := h.inv.step hl
    refine ⟨s', ?_⟩
    cases e with
    | wake t => exact .wake hu.1 hu.2 hl hs
    | readerEnd t => exact .readerEnd hl.1 hl.2 hs
    | writerEnd t => exact .writerEnd hl.1 hl.2 hs
    | _ => exact hu.elim
  · rintro ⟨f, hf, hstep⟩
    have hr : ∀ n, Reach Unnested (f n) := by
      intro n
      induction n with
      | zero => rw [hf]; exact h
      | succ n ih => exact hreach ih (hstep n)
    have hdec : ∀ n, (f n).todo + n ≤ s.todo := by
      intro n
      induction n with
      | zero => rw [hf]; omega
      | succ n ih =>
        obtain ⟨e, hu, hl, hs⟩ := (hstep n).useful
        have := todo_step (hr n).inv hu hl hs
        omega
    have := hdec (s.todo + 1)
    omega
  · intro s' hs
    refine ⟨hreach h hs, ?_⟩
    intro t ht ht'
    cases hs with
    | @wake x h1 h2 h3 h4 =>
      have hd := h.inv.does (e := .wake x) h3 h4
      cases hd with
      | again _ hq => exact absurd ht' ht
      | readerWake _ hq hdx hp =>
        by_cases hx : t = x
        · subst hx; simp [Sys.returned]
        · simp [Sys.returned, hx] at ht'; exact absurd ht' ht
      | writerWake _ hq hdx hp =>
        by_cases hx : t = x
        · subst hx; simp [Sys.returned]
        · simp [Sys.returned, hx] at ht'; exact absurd ht' ht
    | @readerEnd x h1 h2 h3 =>
      have hd := h.inv.does (e := .readerEnd x) ⟨h1, h2⟩ h3
      cases hd with
      | readerLeave _ hx hr => exact absurd ht' ht
      | readerLast _ hx hr hc h0 h1 =>
        rw [(resume_facts hc).2.2.2.2.2] at ht'
        exact absurd ht' ht
    | @writerEnd x h1 h2 h3 =>
      have hd := h.inv.does (e := .writerEnd x) ⟨h1, h2⟩ h3
      cases hd with
      | writerLast _ hx hc h0 h1 =>
        rw [(resume_facts hc).2.2.2.2.2] at ht'
        exact absurd ht' ht

/-- Somebody waits for a reader that has the lock; and, the reader having ended, has been given the lock
and is awake. -/
example : ∃ s : Sys 2, Reach any s ∧ s.phase 1 ≠ .out ∧ s.lock.data 1 = .writable ∧ s.asleep 1 = false := by
  have h : (run (Sys.init 2) [.readerBegin 0 .infinity false, .writerBegin 1 .infinity false,
      .readerEnd 0]).map (fun s => (s.phase 1, s.lock.data 1, s.asleep 1)) =
      some (.writerWait false, .writable, false) := by decide
  obtain ⟨s, h1, h2⟩ := Option.map_eq_some_iff.mp h
  simp only [Prod.mk.injEq] at h2
  exact ⟨s, run_reach _ .init (by simp) h1, by rw [h2.1]; simp, h2.2⟩

/-- A thread that asks for the lock while it has it as a reader can wait for itself: the reader waits
behind a writer, which waits for the reader; no step but spurious ones is possible. -/
theorem rw_nested_counterexample : ∃ s : Sys 2, Reach any s ∧ s.readers = [0] ∧ s.writers = [] ∧
    s.lock.queue = [1, 0] ∧ s.phase 0 = .readerWait false ∧ s.phase 1 = .writerWait false := by
  have h : (run (Sys.init 2) [.readerBegin 0 .infinity false, .writerBegin 1 .infinity false,
      .readerBegin 0 .infinity false]).map
      (fun s => (s.readers, s.writers, s.lock.queue, s.phase 0, s.phase 1)) =
      some ([0], [], [1, 0], .readerWait false, .writerWait false) := by decide
  obtain ⟨s, h1, h2⟩ := Option.map_eq_some_iff.mp h
  simp only [Prod.mk.injEq] at h2
  exact ⟨s, run_reach _ .init (by simp) h1, h2⟩

/-! ## C37

The full statement would be: a begin that times out leaves the lock and the other threads as they would
be had the call not been made.  This is false, `rw_timeout_counterexample`.  What holds is that the timeout
itself, and a failing poll, change nothing but the place of the thread in the line. -/

/-- When the wait of a thread times out, then if it has been given the lock its begin succeeds;
otherwise its begin fails, and the thread leaves the line, everything else about the lock and
all other threads being as before. -/
theorem rw_timeout_partial {s s' : Sys N} (h : Reach any s) {t : Fin N}
    (hl : s.phase t = .readerWait true ∨ s.phase t = .writerWait true)
    (hs : s.step (.timeout t) = some s') :
    s'.phase t = .out ∧
    ((s.lock.data t = .readable ∧ s'.readers = t :: s.readers ∧ s'.writers = s.writers ∧
        s'.lock.queue = s.lock.queue ∧ s'.lock.waiting = s.lock.waiting) ∨
     (s.lock.data t = .writable ∧ s'.writers = t :: s.writers ∧ s'.readers = s.readers ∧
        s'.lock.queue = s.lock.queue ∧ s'.lock.waiting = s.lock.waiting) ∨
     (s.lock.data t ≠ .readable ∧ s.lock.data t ≠ .writable ∧
        s'.readers = s.readers ∧ s'.writers = s.writers ∧ s'.grants = s.grants ∧
        s'.lock.queue = s.lock.queue.filter (· ≠ t) ∧ s'.lock.waiting + 1 = s.lock.waiting)) ∧
    s'.lock.reading = s.lock.reading ∧ s'.lock.writing = s.lock.writing ∧
    s'.lock.maximum = s.lock.maximum ∧
    ∀ x, x ≠ t → s'.phase x = s.phase x ∧ s'.lock.data x = s.lock.data x ∧ s'.asleep x = s.asleep x := by
  have hd := h.inv.does (e := .timeout t) hl hs
  cases hd with
  | fail _ hq =>
    have hlive := h.inv.live t hq
    refine ⟨by simp [Sys.failed], Or.inr (Or.inr ⟨?_, ?_, rfl, rfl, rfl, ?_, ?_⟩), rfl, rfl, rfl, ?_⟩
    · rcases hlive with e | e <;> rw [e] <;> simp
    · rcases hlive with e | e <;> rw [e] <;> simp
    · show s.lock.queue.erase t = _
      rw [h.inv.nodup.erase_eq_filter]
      congr 1
      funext x
      by_cases hx : x = t <;> simp [hx]
    · show s.lock.waiting - 1 + 1 = _
      omega
    · intro x hx
      simp [Sys.failed, Lock.dataset, dequeue, hx]
  | readerLate _ hq hdt hp =>
    refine ⟨by simp [Sys.returned], Or.inl ⟨hdt, rfl, rfl, rfl, rfl⟩, rfl, rfl, rfl, ?_⟩
    intro x hx
    simp [Sys.returned, Lock.dataset, hx]
  | writerLate _ hq hdt hp =>
    refine ⟨by simp [Sys.returned], Or.inr (Or.inl ⟨hdt, rfl, rfl, rfl, rfl⟩), rfl, rfl, rfl, ?_⟩
    intro x hx
    simp [Sys.returned, Lock.dataset, hx]

/-- A begin with a zero timeout never waits, and if it fails it changes nothing. -/
theorem rw_poll_partial {s s' : Sys N} (h : Reach any s) {t : Fin N} {p : Bool} (hl : s.phase t = .out) :
    (s.step (.readerBegin t .poll p) = some s' →
      s'.phase = s.phase ∧ s'.asleep = s.asleep ∧ s'.writers = s.writers ∧
      (s'.readers = t :: s.readers ∨ s'.readers = s.readers ∧ s'.lock = s.lock ∧ s'.grants = s.grants)) ∧
    (s.step (.writerBegin t .poll p) = some s' →
      s'.phase = s.phase ∧ s'.asleep = s.asleep ∧ s'.readers = s.readers ∧
      (s'.writers = t :: s.writers ∨ s'.writers = s.writers ∧ s'.lock = s.lock ∧ s'.grants = s.grants)) := by
  constructor
  · intro hs
    have hd := h.inv.does (e := .readerBegin t .poll p) hl hs
    cases hd with
    | readerGrant _ _ _ hw hq => exact ⟨rfl, rfl, rfl, Or.inl rfl⟩
    | readerPoll _ _ hc => exact ⟨rfl, rfl, rfl, Or.inr ⟨rfl, rfl, rfl⟩⟩
    | readerWait _ _ _ hc ht ho => exact absurd rfl ht
  · intro hs
    have hd := h.inv.does (e := .writerBegin t .poll p) hl hs
    cases hd with
    | writerGrant _ _ _ hr hw hq => exact ⟨rfl, rfl, rfl, Or.inl rfl⟩
    | writerPoll _ _ hc => exact ⟨rfl, rfl, rfl, Or.inr ⟨rfl, rfl, rfl⟩⟩
    | writerWait _ _ _ hc ht ho => exact absurd rfl ht

/-- A waiting writer times out; another is given the lock just before it does. -/
example : ∃ s : Sys 3, Reach any s ∧ s.phase 1 = .writerWait true ∧ s.lock.data 1 = .writable ∧
    s.phase 2 = .readerWait true ∧ s.lock.data 2 = .reader := by
  have h : (run (Sys.init 3) [.readerBegin 0 .infinity false, .writerBegin 1 .finite false,
      .readerBegin 2 .finite false, .readerEnd 0]).map
      (fun s => (s.phase 1, s.lock.data 1, s.phase 2, s.lock.data 2)) =
      some (.writerWait true, .writable, .readerWait true, .reader) := by decide
  obtain ⟨s, h1, h2⟩ := Option.map_eq_some_iff.mp h
  simp only [Prod.mk.injEq] at h2
  exact ⟨s, run_reach _ .init (by simp) h1, h2⟩

/-- A begin that times out can leave another thread waiting that would not wait had the call not been
made: reader 0 has the lock, writer 1 waits for it with a timeout, reader 2 waits behind the writer; the
writer times out, and reader 2 is left waiting although only a reader has the lock and nobody
is ahead of it.  (It waits until reader 0 ends.)  Without the call, reader 2 has the lock. -/
theorem rw_timeout_counterexample :
    (∃ s : Sys 3, run (Sys.init 3) [.readerBegin 0 .infinity false, .writerBegin 1 .finite false,
        .readerBegin 2 .infinity false, .timeout 1] = some s ∧
      s.lock.queue = [2] ∧ s.lock.writing = 0 ∧ s.readers = [0] ∧ s.phase 1 = .out ∧
      s.phase 2 = .readerWait false ∧ s.asleep 2 = true) ∧
    (∃ s : Sys 3, run (Sys.init 3) [.readerBegin 0 .infinity false, .readerBegin 2 .infinity false] = some s ∧
      s.lock.queue = [] ∧ s.readers = [2, 0]) := by
  constructor
  · have h : (run (Sys.init 3) [.readerBegin 0 .infinity false, .writerBegin 1 .finite false,
        .readerBegin 2 .infinity false, .timeout 1]).map
        (fun s => (s.lock.queue, s.lock.writing, s.readers, s.phase 1, s.phase 2, s.asleep 2)) =
        some ([2], 0, [0], .out, .readerWait false, true) := by decide
    obtain ⟨s, h1, h2⟩ := Option.map_eq_some_iff.mp h
    simp only [Prod.mk.injEq] at h2
    exact ⟨s, h1, h2⟩
  · have h : (run (Sys.init 3) [.readerBegin 0 .infinity false, .readerBegin 2 .infinity false]).map
        (fun s => (s.lock.queue, s.readers)) = some ([], [2, 0]) := by decide
    obtain ⟨s, h1, h2⟩ := Option.map_eq_some_iff.mp h
    simp only [Prod.mk.injEq] at h2
    exact ⟨s, h1, h2⟩

/-- The same with a priority request: a reader with priority is put at the head of the line and left
waiting although only a reader has the lock. -/
theorem rw_priority_counterexample : ∃ s : Sys 3, Reach any s ∧
    s.lock.queue = [2, 1] ∧ s.lock.data 2 = .reader ∧ s.lock.writing = 0 ∧ s.readers = [0] := by
  have h : (run (Sys.init 3) [.readerBegin 0 .infinity false, .writerBegin 1 .infinity false,
      .readerBegin 2 .infinity true]).map
      (fun s => (s.lock.queue, s.lock.data 2, s.lock.writing, s.readers)) =
      some ([2, 1], .reader, 0, [0]) := by decide
  obtain ⟨s, h1, h2⟩ := Option.map_eq_some_iff.mp h
  simp only [Prod.mk.injEq] at h2
  exact ⟨s, run_reach _ .init (by simp) h1, h2⟩

/-! ## C59

The full statement would be: when a thread that waits for the lock is cancelled, the other
threads can use the lock as if its call had not been made.  It is false in both cases: -/

/-- A thread that is cancelled while it is in the line never gives up the mutex. -/
theorem rw_cancel_counterexample : ∃ s : Sys 2, Reach any s ∧ s.phase 1 ≠ .out ∧ s.cancel 1 = none := by
  have h : (run (Sys.init 2) [.readerBegin 0 .infinity false, .writerBegin 1 .infinity false]).map
      (fun s => (s.phase 1, (s.cancel 1).isNone)) = some (.writerWait false, true) := by decide
  obtain ⟨s, h1, h2⟩ := Option.map_eq_some_iff.mp h
  simp only [Prod.mk.injEq, Option.isNone_iff_eq_none] at h2
  exact ⟨s, run_reach _ .init (by simp) h1, by rw [h2.1]; simp, h2.2⟩

/-- A thread that is cancelled after it has been given the lock keeps the lock: no thread holds it,
or has been given it, or waits for it, and a writer cannot have it. -/
theorem rw_cancel_leak_counterexample : ∃ s s' s'' : Sys 2, Reach any s ∧ s.phase 1 ≠ .out ∧
    s.cancel 1 = some s' ∧ s'.readers = [] ∧ s'.writers = [] ∧ s'.lock.queue = [] ∧
    (∀ t, s'.phase t = .out) ∧ s'.step (.writerBegin 0 .poll false) = some s'' ∧ s''.writers = [] := by
  have h : ((run (Sys.init 2) [.writerBegin 0 .infinity false, .readerBegin 1 .infinity false,
      .writerEnd 0]).bind fun s => if s.phase 1 = .out then none else (s.cancel 1).bind fun s' =>
        (s'.step (.writerBegin 0 .poll false)).map fun s'' =>
        (s'.readers ++ s'.writers ++ s'.lock.queue, s'.phase 0, s'.phase 1, s''.writers)) =
      some ([], .out, .out, []) := by decide
  obtain ⟨s, h1, h2⟩ := Option.bind_eq_some_iff.mp h
  by_cases hp : s.phase 1 = .out
  · simp [hp] at h2
  rw [if_neg hp] at h2
  obtain ⟨s', h3, h4⟩ := Option.bind_eq_some_iff.mp h2
  obtain ⟨s'', h5, h6⟩ := Option.map_eq_some_iff.mp h4
  simp only [Prod.mk.injEq, List.append_eq_nil_iff] at h6
  refine ⟨s, s', s'', run_reach _ .init (by simp) h1, hp, h3, h6.1.1.1, h6.1.1.2, h6.1.2, ?_, h5, h6.2.2.2⟩
  intro t
  rcases t with ⟨t, ht⟩
  match t, ht with
  | 0, _ => exact h6.2.1
  | 1, _ => exact h6.2.2.1

end Diminuto.ReaderWriter
