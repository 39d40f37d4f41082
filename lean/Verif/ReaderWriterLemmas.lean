import Verif.ReaderWriter
import Mathlib.Data.List.FinRange
import Mathlib.Data.List.Nodup

/-!
# Lemmas on the Reader Writer model
-/

namespace Diminuto.ReaderWriter

variable {N : Nat}

/-- The number of threads with a role. -/
def count (d : Fin N → Role) (r : Role) : Nat := (List.finRange N).countP fun t => d t = r

theorem countP_update (d : Fin N → Role) (t : Fin N) (r r' : Role) : ∀ L : List (Fin N), L.Nodup →
    L.countP (fun x => Function.update d t r' x = r) + (if t ∈ L ∧ d t = r then 1 else 0) =
    L.countP (fun x => d x = r) + (if t ∈ L ∧ r' = r then 1 else 0)
  | [], _ => by simp
  | x :: L, h => by
    have hx := (List.nodup_cons.mp h).1
    have ih := countP_update d t r r' L (List.nodup_cons.mp h).2
    simp only [List.countP_cons, List.mem_cons]
    by_cases hxt : x = t
    · subst hxt
      simp only [hx, Function.update_self, decide_eq_true_eq, true_or, true_and, false_and, if_false] at ih ⊢
      omega
    · rw [Function.update_of_ne hxt]
      have : t ≠ x := fun e => hxt e.symm
      simp only [this, false_or, decide_eq_true_eq]
      omega

theorem count_update (d : Fin N → Role) (t : Fin N) (r r' : Role) :
    count (Function.update d t r') r + (if d t = r then 1 else 0) =
    count d r + (if r' = r then 1 else 0) := by
  have := countP_update d t r r' (List.finRange N) (List.nodup_finRange N)
  simpa [count, List.mem_finRange] using this

theorem count_pos {d : Fin N → Role} {t : Fin N} {r : Role} (h : d t = r) : 0 < count d r := by
  unfold count
  exact List.countP_pos_iff.mpr ⟨t, List.mem_finRange t, by simpa using h⟩

theorem exists_of_count_pos {d : Fin N → Role} {r : Role} (h : 0 < count d r) : ∃ t, d t = r := by
  obtain ⟨t, _, ht⟩ := List.countP_pos_iff.mp h
  exact ⟨t, by simpa using ht⟩

/-- The roles after the activation of threads. -/
def mark (d : Fin N → Role) (ts : List (Fin N)) (r : Role) : Fin N → Role :=
  fun t => if t ∈ ts then r else d t

theorem mark_cons (d : Fin N → Role) (t : Fin N) (ts : List (Fin N)) (r : Role) :
    mark d (t :: ts) r = Function.update (mark d ts r) t r := by
  funext x
  by_cases h : x = t
  · subst h; simp [mark]
  · simp [mark, h]

theorem mark_update (d : Fin N → Role) (t : Fin N) (ts : List (Fin N)) (r : Role) :
    mark (Function.update d t r) ts r = mark d (t :: ts) r := by
  funext x
  by_cases h : x = t
  · subst h; simp [mark]
  · simp [mark, h]

theorem count_mark (d : Fin N → Role) (r : Role) : ∀ ts : List (Fin N), ts.Nodup →
    (∀ t ∈ ts, d t ≠ r) → count (mark d ts r) r = count d r + ts.length
  | [], _, _ => by
    have : mark d [] r = d := by funext x; simp [mark]
    simp [this]
  | t :: ts, hn, h => by
    have hn' := List.nodup_cons.mp hn
    rw [mark_cons]
    have h1 := count_update (mark d ts r) t r r
    have h2 : mark d ts r t ≠ r := by simp [mark, hn'.1, h t (by simp)]
    have ih := count_mark d r ts hn'.2 (fun x hx => h x (by simp [hx]))
    simp only [h2, if_false, if_true] at h1
    simp only [List.length_cons]
    omega

theorem count_mark_ne (d : Fin N → Role) (r r' : Role) (hr : r' ≠ r) : ∀ ts : List (Fin N), ts.Nodup →
    (∀ t ∈ ts, d t ≠ r) → count (mark d ts r') r = count d r
  | [], _, _ => by
    have : mark d [] r' = d := by funext x; simp [mark]
    simp [this]
  | t :: ts, hn, h => by
    have hn' := List.nodup_cons.mp hn
    rw [mark_cons]
    have h1 := count_update (mark d ts r') t r r'
    have h2 : mark d ts r' t ≠ r := by simp [mark, hn'.1, h t (by simp)]
    have ih := count_mark_ne d r r' hr ts hn'.2 (fun x hx => h x (by simp [hx]))
    simp only [h2, hr, if_false] at h1
    omega

/-- No thread on the list has failed. -/
def Live (l : Lock N) : Prop := ∀ t ∈ l.queue, l.data t = .reader ∨ l.data t = .writer

theorem head_eq {l : Lock N} (h : Live l) : head l = (l, l.queue.head?) := by
  unfold head headLoop
  cases hq : l.queue with
  | nil => rfl
  | cons t q =>
    have := h t (by simp [hq])
    simp only []
    rw [if_neg (by rcases this with e | e <;> rw [e] <;> simp)]
    rfl

/-- Leading readers activated. -/
def Lock.batch (l : Lock N) : Lock N :=
  let ts := l.queue.takeWhile fun t => l.data t = .reader
  { l with
    queue := l.queue.dropWhile fun t => l.data t = .reader
    data := mark l.data ts .readable
    waiting := l.waiting - ts.length
    reading := l.reading + ts.length }

theorem takeWhile_congr' {α : Type} {p q : α → Bool} : ∀ {l : List α}, (∀ x ∈ l, p x = q x) →
    l.takeWhile p = l.takeWhile q
  | [], _ => rfl
  | x :: l, h => by
    have h1 := h x (by simp)
    have h2 := takeWhile_congr' (l := l) (fun y hy => h y (by simp [hy]))
    simp only [List.takeWhile_cons, h1, h2]

theorem dropWhile_congr' {α : Type} {p q : α → Bool} : ∀ {l : List α}, (∀ x ∈ l, p x = q x) →
    l.dropWhile p = l.dropWhile q
  | [], _ => rfl
  | x :: l, h => by
    have h1 := h x (by simp)
    have h2 := dropWhile_congr' (l := l) (fun y hy => h y (by simp [hy]))
    simp only [List.dropWhile_cons, h1, h2]

theorem resumeLoop_reader : ∀ (fuel : Nat) (l : Lock N) (required : Required) (c : Option Cond)
    (ts : List (Fin N)), l.queue.length < fuel → l.queue.Nodup → Live l →
    (required = .any → ∃ t q, l.queue = t :: q ∧ l.data t = .reader) →
    resumeLoop fuel l required c ts =
      (l.batch, (if l.queue.takeWhile (fun t => l.data t = .reader) = [] then c else some .reader),
        ts ++ l.queue.takeWhile fun t => l.data t = .reader)
  | 0, l, _, _, _, hf, _, _, _ => by omega
  | fuel + 1, l, required, c, ts, hf, hn, hl, hr => by
    unfold resumeLoop
    rw [head_eq hl]
    cases hq : l.queue with
    | nil =>
      obtain ⟨queue, data, waiting, maximum, reading, writing⟩ := l
      simp only at hq
      subst hq
      have : mark data [] .readable = data := by funext x; simp [mark]
      simp [Lock.batch, this]
    | cons t q =>
      simp only [List.head?_cons]
      by_cases ht : l.data t = .reader
      · rw [if_pos ht]
        rw [hq] at hn hf
        have hn' := List.nodup_cons.mp hn
        have he : ∀ x ∈ q, x ≠ t := fun x hx e => hn'.1 (e ▸ hx)
        rw [resumeLoop_reader fuel _ .reader _ _ (by simp [dequeue, Lock.dataset, hq]; simp at hf; omega)
          (by simp [dequeue, Lock.dataset, hq, hn'.2])
          (by
            intro x hx
            simp only [dequeue, Lock.dataset, hq, List.erase_cons_head] at hx ⊢
            rw [Function.update_of_ne (he x hx)]
            exact hl x (by simp [hq, hx]))
          (by intro h; cases h)]
        have ec : ∀ x ∈ q, (decide (Function.update l.data t Role.readable x = .reader)) =
            decide (l.data x = .reader) := by
          intro x hx
          rw [Function.update_of_ne (he x hx)]
        simp only [dequeue, Lock.dataset, hq, List.erase_cons_head, Lock.batch, List.takeWhile_cons,
          List.dropWhile_cons, ht, decide_true, if_true, List.append_assoc, List.singleton_append,
          takeWhile_congr' ec, dropWhile_congr' ec, List.length_cons, mark_update, reduceCtorEq, if_false,
          Prod.mk.injEq, Lock.mk.injEq, true_and]
        refine ⟨⟨by push_cast; omega, by push_cast; omega, trivial⟩, ?_⟩
        split <;> simp
      · rw [if_neg ht]
        have hw : l.data t = .writer := (hl t (by simp [hq])).resolve_left ht
        rw [if_neg (by
          rintro ⟨-, hreq⟩
          obtain ⟨t', q', h1, h2⟩ := hr hreq
          rw [hq] at h1
          cases h1
          exact ht h2)]
        obtain ⟨queue, data, waiting, maximum, reading, writing⟩ := l
        simp only at hq hw
        subst hq
        have : mark data [] .readable = data := by funext x; simp [mark]
        simp [Lock.batch, hw, this]

theorem resume_nil {l : Lock N} (h : l.queue = []) : resume l = (l, none, []) := by
  unfold resume
  rw [h]
  unfold resumeLoop
  rw [head_eq (by intro t ht; simp [h] at ht), h]
  rfl

theorem resume_reader {l : Lock N} (hn : l.queue.Nodup) (hl : Live l) {t : Fin N} {q : List (Fin N)}
    (hq : l.queue = t :: q) (ht : l.data t = .reader) :
    resume l = (l.batch, some .reader, l.queue.takeWhile fun t => l.data t = .reader) := by
  unfold resume
  rw [resumeLoop_reader _ _ _ _ _ (by omega) hn hl (fun _ => ⟨t, q, hq, ht⟩)]
  simp [hq, ht]

theorem resume_writer {l : Lock N} (hl : Live l) {t : Fin N} {q : List (Fin N)}
    (hq : l.queue = t :: q) (ht : l.data t = .writer) :
    resume l = (
      { l with
        queue := q
        data := Function.update l.data t .writable
        waiting := l.waiting - 1
        writing := l.writing + 1 }, some .writer, [t]) := by
  unfold resume resumeLoop
  rw [head_eq hl, hq]
  simp [ht, dequeue, Lock.dataset, hq]

end Diminuto.ReaderWriter
