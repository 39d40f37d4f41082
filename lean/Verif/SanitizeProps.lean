import Verif.SanitizeLemmas

/-!
# The context of a daemon
-/

namespace Diminuto.Sanitize

/-- C113.  Claimed: the first three descriptors of a daemon are redirected to the null device, the first for reading and the others for writing, and all others, below the number of them, are closed.  Shown
here for a process of which the standard streams are at their own descriptors, and that may open another descriptor, above these three. -/
theorem sanitize_partial (p : Process) (null fds n : Nat) (hi : p.stdin = some 0) (ho : p.stdout = some 1) (he : p.stderr = some 2) (h3 : 3 ≤ n) (hn : n < p.limit) (hf : p.files n = none) :
    ∃ q, sanitize (some (some null)) fds p = some q ∧ q.files 0 = some ⟨null, .read⟩ ∧ q.files 1 = some ⟨null, .write⟩ ∧ q.files 2 = some ⟨null, .write⟩ ∧ (∀ m, 3 ≤ m → m < fds → q.files m = none) ∧
      (∀ m, 3 ≤ m → fds ≤ m → q.files m = p.files m) ∧ q.stdin = some 0 ∧ q.stdout = some 1 ∧ q.stderr = some 2 := by
  have g0 := redirected hn hf null 0 (by omega) .read
  have f1 : put p.files 0 (some ⟨null, .read⟩) n = none := by
    have e0 : n ≠ 0 := by omega
    simp [put, hf, e0]
  have g1 := redirected hn f1 null 1 (by omega) .write
  have f2 : put (put p.files 0 (some ⟨null, .read⟩)) 1 (some ⟨null, .write⟩) n = none := by
    have e0 : n ≠ 0 := by omega
    have e1 : n ≠ 1 := by omega
    simp [put, hf, e0, e1]
  have g2 := redirected hn f2 null 2 (by omega) .write
  obtain ⟨t, ht, hc⟩ := closed (List.range fds) (put (put (put p.files 0 (some ⟨null, .read⟩)) 1 (some ⟨null, .write⟩)) 2 (some ⟨null, .write⟩))
  refine ⟨{ files := t, limit := p.limit, stdin := some 0, stdout := some 1, stderr := some 2, pid := p.pid, pgid := p.pid, sid := if p.pgid = p.pid then p.sid else p.pid, umask := 0, cwd := "/", action := signals p.action },
    ?_, ?_, ?_, ?_, ?_, ?_, ?_, ?_, ?_⟩
  · simp only [sanitize, hi, ho, he, g0, g1, g2, ht, Option.bind_eq_bind, Option.bind_some]
  · simp [hc, put]
  · simp [hc, put]
  · simp [hc, put]
  · intro m h1 h2
    simp [hc, h1, h2]
  · intro m h1 h2
    have e0 : m ≠ 0 := by omega
    have e1 : m ≠ 1 := by omega
    have e2 : m ≠ 2 := by omega
    simp [hc, put, e0, e1, e2]
    omega
  · rfl
  · rfl
  · rfl

/-- C113.  Without a path, as `diminuto_system` does it, the first three descriptors are inherited and all others are closed. -/
theorem sanitize_system (p : Process) (fds : Nat) (hi : p.stdin = some 0) (ho : p.stdout = some 1) (he : p.stderr = some 2) :
    ∃ q, sanitize none fds p = some q ∧ (∀ m, m < 3 → q.files m = p.files m) ∧ (∀ m, 3 ≤ m → m < fds → q.files m = none) ∧ (∀ m, 3 ≤ m → fds ≤ m → q.files m = p.files m) := by
  obtain ⟨t, ht, hc⟩ := closed (List.range fds) p.files
  refine ⟨{ files := t, limit := p.limit, stdin := some 0, stdout := some 1, stderr := some 2, pid := p.pid, pgid := p.pid, sid := if p.pgid = p.pid then p.sid else p.pid, umask := 0, cwd := "/", action := signals p.action },
    ?_, ?_, ?_, ?_⟩
  · simp only [sanitize, hi, ho, he, ht, Option.bind_eq_bind, Option.bind_some]
  · intro m h
    have : ¬ 3 ≤ m := by omega
    simp [hc, this]
  · intro m h1 h2
    simp [hc, h1, h2]
  · intro m h1 h2
    simp [hc]
    omega

/-- C113.  Whatever happens to its descriptors, the daemon is the leader of a session of its own, in the root directory, creates files with the modes that it asks for, cannot be stopped or hung up by a
terminal, and ends when it is asked to; the other signals are as they were. -/
theorem sanitize_context (p q : Process) (path : Option (Option Nat)) (fds : Nat) (hg : p.pgid ≠ p.pid) (h : sanitize path fds p = some q) :
    q.pid = p.pid ∧ q.sid = p.pid ∧ q.pgid = p.pid ∧ q.umask = 0 ∧ q.cwd = "/" ∧ (∀ n ∈ [1, 14, 20, 21, 22], q.action n = .ignore) ∧ (∀ n ∈ [15, 17], q.action n = .default) ∧
    ∀ n, n ∉ [1, 14, 15, 17, 20, 21, 22] → q.action n = p.action n := by
  have key : q.pid = p.pid ∧ q.sid = (if p.pgid = p.pid then p.sid else p.pid) ∧ q.pgid = p.pid ∧ q.umask = 0 ∧ q.cwd = "/" ∧ q.action = signals p.action := by
    cases path with
    | none =>
      simp only [sanitize, Option.bind_eq_bind, Option.bind_some, Option.bind_eq_some_iff] at h
      obtain ⟨t, -, h⟩ := h
      injection h with h; subst h; exact ⟨rfl, rfl, rfl, rfl, rfl, rfl⟩
    | some file =>
      simp only [sanitize, Option.bind_eq_bind, Option.bind_some, Option.bind_eq_some_iff] at h
      obtain ⟨x, -, y, -, z, -, t, -, h⟩ := h
      injection h with h; subst h; exact ⟨rfl, rfl, rfl, rfl, rfl, rfl⟩
  obtain ⟨h1, h2, h3, h4, h5, h6⟩ := key
  refine ⟨h1, by rw [h2, if_neg hg], h3, h4, h5, ?_, ?_, ?_⟩
  · intro n hn
    rw [h6]
    simp only [List.mem_cons, List.not_mem_nil, or_false] at hn
    rcases hn with rfl | rfl | rfl | rfl | rfl <;> rfl
  · intro n hn
    rw [h6]
    simp only [List.mem_cons, List.not_mem_nil, or_false] at hn
    rcases hn with rfl | rfl <;> rfl
  · intro n hn
    simp only [List.mem_cons, List.not_mem_nil, or_false, not_or] at hn
    rw [h6, signals, if_neg hn.2.1, if_neg hn.2.2.2.1, if_neg hn.2.2.2.2.1, if_neg hn.2.2.2.2.2.2, if_neg hn.2.2.2.2.2.1, if_neg hn.1, if_neg hn.2.2.1]

/-- A process with a terminal, file number 7, and two more files. -/
def shell : Process :=
  { files := fun n => if n < 3 then some ⟨7, .both⟩ else if n < 5 then some ⟨n + 10, .both⟩ else none, limit := 16, stdin := some 0, stdout := some 1, stderr := some 2, pid := 102, pgid := 100, sid := 50,
    umask := 18, cwd := "/home", action := fun n => if n = 2 then .handler 9 else .default }

/-- It becomes a daemon; the null device is file number 3. -/
example : shell.stdin = some 0 ∧ shell.files 5 = none ∧ shell.pgid ≠ shell.pid ∧ (∃ q, sanitize (some (some 3)) 16 shell = some q ∧ q.files 1 = some ⟨3, .write⟩ ∧ q.files 4 = none ∧ q.action 2 = .handler 9) := by
  obtain ⟨q, h, -, h1, -, hc, -⟩ := sanitize_partial shell 3 16 5 rfl rfl rfl (by decide) (by decide) rfl
  refine ⟨rfl, rfl, by decide, q, h, h1, hc 4 (by decide) (by decide), ?_⟩
  exact (sanitize_context shell q _ _ (by decide) h).2.2.2.2.2.2.2 2 (by decide)

/-- A process with a terminal, file number 7, and no descriptor left. -/
def full : Process := { shell with files := fun n => if n < 3 then some ⟨7, .both⟩ else if n < 8 then some ⟨n + 10, .both⟩ else none, limit := 8 }

/-- C113, refuted.  A process that has no descriptor left becomes a daemon that still reads from its terminal and writes to it: the files are closed only after the attempt to redirect. -/
theorem sanitize_full_counterexample : ∃ q, sanitize (some (some 3)) 8 full = some q ∧ q.files 0 = some ⟨7, .both⟩ ∧ q.files 1 = some ⟨7, .both⟩ ∧ q.files 2 = some ⟨7, .both⟩ ∧ q.files 3 = none := by
  refine ⟨_, rfl, rfl, rfl, rfl, rfl⟩

/-- C113, refuted.  And so does one that finds no null device. -/
theorem sanitize_null_counterexample : ∃ q, sanitize (some none) 16 shell = some q ∧ q.files 0 = some ⟨7, .both⟩ ∧ q.files 1 = some ⟨7, .both⟩ ∧ q.files 2 = some ⟨7, .both⟩ := by
  refine ⟨_, rfl, rfl, rfl, rfl⟩

/-- C113, refuted.  A standard stream that is not at its own descriptor is made use of after it has been closed. -/
theorem sanitize_moved_counterexample : sanitize (some (some 3)) 16 { shell with stdout := some 4 } = none := by rfl

/-- C113, refuted.  An output stream that is NULL stays so, because it is opened for reading, and is then given to `fileno(3)`. -/
theorem sanitize_mode_counterexample : redirect (some 3) 1 .write none 16 (fun n => if n = 0 then some ⟨3, .read⟩ else none) =
      some (put (fun n => if n = 0 then some ⟨3, .read⟩ else none) 1 (some ⟨3, .write⟩), none) ∧ sanitize (some (some 3)) 16 { shell with stdout := none } = none := by
  refine ⟨?_, rfl⟩
  have hl : lowest 16 (fun n => if n = 0 then some (⟨3, .read⟩ : Open) else none) = some 1 := by decide
  simp only [redirect, hl]
  rfl

end Diminuto.Sanitize
