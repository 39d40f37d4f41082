import Verif.LockLemmas

/-!
# Property C43: the Lock
-/

namespace Diminuto.Lock

/-- C43 (partial: of the names that `mkstemp` finds none is still going to be unlinked by another call;
see `lock_name_counterexample`): what a reader finds in the lock file at any instant, and what the calls return, is what the
specification says of an object on which each call acts at one instant.  In particular locks alternate with
unlocks, a failing call changes nothing, and the file has the complete PID from the instant it
exists (or is empty while prelocked). -/
theorem lock_atomic_partial (text : Nat → List Byte) (es : List Event) (s : State) (h : Run text start es s) :
    history text s.log = some (contents s) := (run_inv h (inv_start text)).spec

/-- C43 (partial, as above): whoever opens the lock file reads the complete PID of a process that locked it, or nothing at all
while it is prelocked. -/
theorem lock_contents_partial (text : Nat → List Byte) (es : List Event) (s : State) (h : Run text start es s)
    (c : List Byte) (hc : contents s = some c) :
    c = [] ∨ ∃ p, c = text p ∧ (Act.locked p ∈ s.log ∨ Act.postlocked p ∈ s.log ∨ Act.filed p ∈ s.log) := by
  have hh := lock_atomic_partial text es s h
  rw [hc] at hh
  clear hc h
  generalize s.log = l at hh
  induction l generalizing c with
  | nil => simp [history] at hh
  | cons a l ih =>
    simp only [history, Option.bind_eq_some_iff] at hh
    obtain ⟨o, h1, h2⟩ := hh
    cases a with
    | locked p =>
      cases o <;> simp only [Act.spec, Option.some.injEq, reduceCtorEq] at h2
      exact .inr ⟨p, h2.symm, .inl (by simp)⟩
    | prelocked p =>
      cases o <;> simp only [Act.spec, Option.some.injEq, reduceCtorEq] at h2
      exact .inl h2.symm
    | postlocked p =>
      cases o <;> simp only [Act.spec, Option.some.injEq, reduceCtorEq] at h2
      exact .inr ⟨p, h2.symm, .inr (.inl (by simp))⟩
    | filed p =>
      simp only [Act.spec, Option.some.injEq] at h2
      exact .inr ⟨p, h2.symm, .inr (.inr (by simp))⟩
    | unlocked p => cases o <;> simp [Act.spec] at h2
    | exists_ p =>
      cases o <;> simp only [Act.spec, Option.some.injEq, reduceCtorEq] at h2
      subst h2
      rcases ih _ h1 with h | ⟨q, h3, h4⟩
      · exact .inl h
      · exact .inr ⟨q, h3, by simpa using h4⟩
    | absent p => cases o <;> simp [Act.spec] at h2
    | lost p => simp [Act.spec] at h2
    | error p =>
      simp only [Act.spec, Option.some.injEq] at h2
      subst h2
      rcases ih _ h1 with h | ⟨q, h3, h4⟩
      · exact .inl h
      · exact .inr ⟨q, h3, by simpa using h4⟩

/-- C43 (partial, as above): of two acquisitions, there is a release between. -/
theorem lock_exclusive_partial (text : Nat → List Byte) (es : List Event) (s : State) (h : Run text start es s)
    (l1 l2 l3 : List Act) (a b : Act) (hl : s.log = l1 ++ a :: l2 ++ b :: l3) (ha : a.acquires = true)
    (hb : b.acquires = true) : ∃ c ∈ l2, c.releases = true := by
  have hh := lock_atomic_partial text es s h
  generalize contents s = o at hh
  rw [hl] at hh
  clear hl h
  -- drop what came later
  have drop : ∀ (l m : List Act) (o : Option (List Byte)), history text (l ++ m) = some o →
      ∃ o', history text m = some o' := by
    intro l
    induction l with
    | nil => intro m o h; exact ⟨o, h⟩
    | cons x l ih =>
      intro m o h
      simp only [List.cons_append, history, Option.bind_eq_some_iff] at h
      obtain ⟨o1, h1, -⟩ := h
      exact ih m o1 h1
  rw [List.append_assoc] at hh
  obtain ⟨o1, h1⟩ := drop _ _ _ hh
  simp only [List.cons_append, history, Option.bind_eq_some_iff] at h1
  obtain ⟨o2, h2, h3⟩ := h1
  have hn : o2 = none := by
    cases a <;> simp [Act.acquires] at ha <;> cases o2 <;> simp_all [Act.spec]
  subst hn
  clear h3 hh
  -- after b the lock is held until it is released
  induction l2 with
  | nil =>
    simp only [List.nil_append, history, Option.bind_eq_some_iff] at h2
    obtain ⟨o3, -, h4⟩ := h2
    cases b <;> simp [Act.acquires] at hb <;> cases o3 <;> simp [Act.spec] at h4
  | cons x l2 ih =>
    simp only [List.cons_append, history, Option.bind_eq_some_iff] at h2
    obtain ⟨o3, h4, h5⟩ := h2
    cases o3 with
    | none =>
      obtain ⟨c, h6, h7⟩ := ih h4
      exact ⟨c, by simp [h6], h7⟩
    | some y =>
      refine ⟨x, by simp, ?_⟩
      cases x <;> simp [Act.spec] at h5 <;> rfl

/-- C43 (partial, as above): a temporary file belongs to a call that has not returned, or to a process that crashed. -/
theorem lock_no_litter_partial (text : Nat → List Byte) (es : List Event) (s : State) (h : Run text start es s) (t : Nat)
    (ht : s.dir (.temp t) ≠ none) :
    (∃ p, s.pc p ≠ .idle ∧ (s.pc p).name = some t) ∨ ∃ p, s.pc p = .dead (some t) := by
  obtain ⟨i, hi⟩ := Option.ne_none_iff_exists'.1 ht
  rcases (run_inv h (inv_start text)).temps t i hi with ⟨p, hp⟩ | hp
  · exact .inl ⟨p, by intro h0; rw [h0] at hp; simp [Pc.name] at hp, hp⟩
  · exact .inr hp

/-- C43 (partial, as above): when all the calls have returned and no process has crashed, there is no file but the lock. -/
theorem lock_quiet_partial (text : Nat → List Byte) (es : List Event) (s : State) (h : Run text start es s)
    (hq : ∀ p, s.pc p = .idle) (t : Nat) : s.dir (.temp t) = none := by
  apply Classical.byContradiction
  intro hn
  rcases lock_no_litter_partial text es s h t hn with ⟨p, hp, -⟩ | ⟨p, hp⟩
  · exact hp (hq p)
  · rw [hq p] at hp
    simp at hp

/-- C43 (partial, as above): a step that is not the one at which a call takes effect changes nothing that a reader of the lock
file can see. -/
theorem lock_silent_partial (text : Nat → List Byte) (es : List Event) (s s' : State) (e : Event)
    (h : Run text start es s) (hf : Fresh s e) (hs : step text s e = some s') (hl : s'.log = s.log) :
    contents s' = contents s := by
  have h1 := lock_atomic_partial text es s h
  have h2 := lock_atomic_partial text _ s' (h.snoc hf hs)
  rw [hl, h1] at h2
  exact (Option.some.inj h2).symm

/-- C43: the number that a call returns is zero just if it took effect. -/
theorem lock_returns (text : Nat → List Byte) (es : List Event) (s : State) (h : run text start es = some s) (p : Nat)
    (t : Option Nat) (ok : Bool) (hp : s.pc p = .cleanup t ok) :
    ∃ a, latest p s.log = some a ∧ a.success = ok := by
  suffices ∀ (es : List Event) (s0 : State), Returns s0 → run text s0 es = some s → Returns s from
    this es start (by intro p t ok hp; simp [start] at hp) h p t ok hp
  intro es
  induction es with
  | nil =>
    intro s0 h0 h1
    simp only [run, Option.some.injEq] at h1
    subst h1
    exact h0
  | cons e es ih =>
    intro s0 h0 h1
    simp only [run, Option.bind_eq_some_iff] at h1
    obtain ⟨s1, h2, h3⟩ := h1
    exact ih s1 (step_returns h0 e h2) h3

/-- C43: a call by itself without errors: lock succeeds if there is no lock file, postlock if there is one, and file always;
then the lock file has the PID.  Otherwise nothing changes.  The temporary file is gone, and no other name is
touched. -/
theorem lock_sequential (text : Nat → List Byte) (s : State) (p : Nat) (k : Kind) (t : Nat) (hp : s.pc p = .idle)
    (ht : s.dir (.temp t) = none) (hl : s.dir .lock ≠ some s.next) :
    ∃ s', run text s (whole p k t (text p).length) = some s' ∧ s'.pc = s.pc ∧ s'.dir (.temp t) = none ∧
      (∀ u, u ≠ t → s'.dir (.temp u) = s.dir (.temp u)) ∧
      match k, contents s with
      | .lock, none => contents s' = some (text p) ∧ s'.log = .locked p :: s.log
      | .lock, some c => contents s' = some c ∧ s'.log = .exists_ p :: s.log
      | .post, none => contents s' = none ∧ s'.log = .absent p :: s.log
      | .post, some _ => contents s' = some (text p) ∧ s'.log = .postlocked p :: s.log
      | .file, _ => contents s' = some (text p) ∧ s'.log = .filed p :: s.log := by
  have hpc : ∀ (f : Nat → Pc), f p = .idle → upd (upd (upd (upd (upd (upd f p (.start k)) p
      (.opened k t s.next (text p))) p (.opened k t s.next [])) p (.closed k t)) p (.cleanup (some t) true)) p .idle = f := by
    intro f hf
    funext q
    by_cases hq : q = p
    · subst hq; rw [upd_same, hf]
    · simp [upd, hq]
  have hpc' : ∀ (f : Nat → Pc), f p = .idle → upd (upd (upd (upd (upd (upd f p (.start k)) p
      (.opened k t s.next (text p))) p (.opened k t s.next [])) p (.closed k t)) p (.cleanup (some t) false)) p .idle = f := by
    intro f hf
    funext q
    by_cases hq : q = p
    · subst hq; rw [upd_same, hf]
    · simp [upd, hq]
  cases hd : s.dir .lock with
  | none =>
    have hc : contents s = none := by simp [contents, hd]
    cases k with
    | lock =>
      refine ⟨_, by simp [run, whole, step, hp, go, upd_same, create, ht, renameLock, upd_ne, hd, note]; rfl, ?_, ?_, ?_, ?_⟩
      · exact hpc _ hp
      · simp [upd]
      · intro u hu
        simp [upd, hu]
      · rw [hc]
        simp [contents, upd]
    | post =>
      refine ⟨_, by simp [run, whole, step, hp, go, upd_same, create, ht, renamePost, upd_ne, hd, note]; rfl, ?_, ?_, ?_, ?_⟩
      · exact hpc' _ hp
      · simp [upd]
      · intro u hu
        simp [upd, hu]
      · rw [hc]
        simp [contents, upd, hd]
    | file =>
      refine ⟨_, by simp [run, whole, step, hp, go, upd_same, create, ht, renameFile, note]; rfl, ?_, ?_, ?_, ?_⟩
      · exact hpc _ hp
      · simp [upd]
      · intro u hu
        simp [upd, hu]
      · simp [contents, upd]
  | some j =>
    rw [hd] at hl
    have hj : j ≠ s.next := fun h => hl (by rw [h])
    have hc : contents s = some (s.data j) := by simp [contents, hd]
    cases k with
    | lock =>
      refine ⟨_, by simp [run, whole, step, hp, go, upd_same, create, ht, renameLock, upd_ne, hd, note]; rfl, ?_, ?_, ?_, ?_⟩
      · exact hpc' _ hp
      · simp [upd]
      · intro u hu
        simp [upd, hu]
      · rw [hc]
        simp [contents, upd, hd, hj]
    | post =>
      refine ⟨_, by simp [run, whole, step, hp, go, upd_same, create, ht, renamePost, upd_ne, hd, note]; rfl, ?_, ?_, ?_, ?_⟩
      · exact hpc _ hp
      · simp [upd]
      · intro u hu
        simp [upd, hu]
      · rw [hc]
        simp [contents, upd]
    | file =>
      refine ⟨_, by simp [run, whole, step, hp, go, upd_same, create, ht, renameFile, note]; rfl, ?_, ?_, ?_, ?_⟩
      · exact hpc _ hp
      · simp [upd]
      · intro u hu
        simp [upd, hu]
      · simp [contents, upd]

/-- What the PIDs 1, 2 and 3 look like. -/
def digits (p : Nat) : List Byte := [48#8 + BitVec.ofNat 8 p, 10#8]

/-- Process 1 locks; its temporary name is free before it unlinks it.  Process 2 finds the same name for its temporary file,
which process 1 unlinks, and process 3 finds the same name again; process 2 then
renames the file of process 3. -/
def reuse : List Event :=
  [.call 1 .lock, .mkstemp 1 0, .write 1 2, .fclose 1, .rename 1,
   .call 2 .lock, .mkstemp 2 0, .write 2 2, .fclose 2,
   .unlinkTemp 1, .unlock 1,
   .call 3 .lock, .mkstemp 3 0, .rename 2, .write 3 2]

/-- C43 is false for the code: if `mkstemp` finds a name that a call which has already renamed its temporary file is still
going to unlink, a process holds the lock whose PID is not in the lock file: at first the file is empty, and then it
has the PID of a process that does not hold the lock. -/
theorem lock_name_counterexample :
    ∃ s, run digits start reuse = some s ∧ s.log = [.locked 2, .unlocked 1, .locked 1] ∧
      contents s = some (digits 3) ∧ digits 3 ≠ digits 2 ∧ history digits s.log = some (some (digits 2)) := by
  refine ⟨_, rfl, rfl, rfl, by decide, rfl⟩

/-- C43 is false for the code: if the bytes cannot be written when the temporary file is closed, for example because the
file system is full, the stream is closed a second time: undefined behaviour, instead of a failure that leaves no temporary file. -/
theorem lock_fclose_counterexample :
    ∃ s, run digits start [.call 1 .lock, .mkstemp 1 0, .fcloseFail 1] = some s ∧ s.pc 1 = .undefined 0 ∧
      s.dir (.temp 0) ≠ none := by
  refine ⟨_, rfl, rfl, by decide⟩

/-- A run with two processes, of which one fails, to which the theorems apply. -/
example : ∃ s, Run digits start
    ([.call 1 .lock, .call 2 .lock, .mkstemp 1 0, .mkstemp 2 1, .write 2 1, .write 1 2, .fclose 1, .rename 1, .write 2 1, .fclose 2,
      .rename 2]) s ∧ contents s = some (digits 1) ∧ s.pc 2 = .cleanup (some 1) false := by
  refine ⟨_, ((((((((((Run.nil.snoc (e := .call 1 .lock) trivial rfl).snoc (e := .call 2 .lock) trivial rfl).snoc
    (e := .mkstemp 1 0) ?_ rfl).snoc (e := .mkstemp 2 1) ?_ rfl).snoc (e := .write 2 1) trivial rfl).snoc
    (e := .write 1 2) trivial rfl).snoc (e := .fclose 1) trivial rfl).snoc (e := .rename 1) trivial rfl).snoc
    (e := .write 2 1) trivial rfl).snoc (e := .fclose 2) trivial rfl).snoc (e := .rename 2) trivial rfl, rfl, rfl⟩
  · intro q
    simp only [go, start, upd]
    split
    · simp [Pc.name]
    · split <;> simp [Pc.name]
  · intro q
    simp only [go, create, start, upd]
    split
    · simp [Pc.name]
    · split <;> simp [Pc.name]

end Diminuto.Lock
