import Verif.I2cSpec
import Verif.EndpointTextLemmas

/-!
# Lemmas: I2C
-/

namespace Diminuto.I2c

variable {σ : Type}

/-- The calls one after the other until one fails. -/
def exec (w : World σ) (fd : Int) : List Call → Result → σ → Result × σ
  | [], r, s => (r, s)
  | c :: cs, r, s => if (perform w fd c r s).1.rc < 0 then perform w fd c r s else exec w fd cs (perform w fd c r s).1 (perform w fd c r s).2

theorem use_minus {w : World σ} (hm : Minus w) (fd : Int) (a : BitVec 8) (s s' : σ) (rc : Int) (h : use w fd a s = (rc, s')) (h0 : rc < 0) : rc = -1 := by
  have := hm.1 fd a s
  simp only [use] at h
  rw [h] at this
  exact this h0

theorem write_minus {w : World σ} (hm : Minus w) (fd : Int) (d : List Byte) (s s' : σ) (rc : Int) (h : write w fd d s = (rc, s')) (h0 : rc < 0) : rc = -1 := by
  have := hm.2.1 fd d s
  rcases ho : w.write fd d s with ⟨n, s1⟩
  rw [ho] at this
  simp only [write, ho, Prod.mk.injEq] at h
  obtain ⟨h, -⟩ := h
  simp only [] at this
  split at h
  · omega
  · split at h
    · omega
    · split at h <;> omega

theorem exec_use {w : World σ} {fd : Int} {a : BitVec 8} {s s' : σ} {rc : Int} (h : use w fd a s = (rc, s')) (cs : List Call) (r : Result) :
    exec w fd (.use a :: cs) r s = if rc < 0 then (⟨rc, r.got⟩, s') else exec w fd cs ⟨rc, r.got⟩ s' := by
  simp [exec, perform, h]

theorem exec_write {w : World σ} {fd : Int} {d : List Byte} {s s' : σ} {rc : Int} (h : write w fd d s = (rc, s')) (cs : List Call) (r : Result) :
    exec w fd (.write d :: cs) r s = if rc < 0 then (⟨rc, r.got⟩, s') else exec w fd cs ⟨rc, r.got⟩ s' := by
  simp [exec, perform, h]

theorem exec_read {w : World σ} {fd : Int} {n : Nat} {s s' : σ} {q : Result} (h : read w fd n s = (q, s')) (cs : List Call) (r : Result) :
    exec w fd (.read n :: cs) r s = if q.rc < 0 then (⟨q.rc, r.got ++ q.got⟩, s') else exec w fd cs ⟨q.rc, r.got ++ q.got⟩ s' := by
  simp [exec, perform, h]

theorem whole_exec {w : World σ} (hm : Minus w) (op : Op) (s : σ) : whole w op s = exec w op.fd op.calls ⟨-1, []⟩ s := by
  cases op with
  | get fd addr reg size =>
    show get w fd addr reg size s = exec w fd [.use addr, .write [reg], .read size] ⟨-1, []⟩ s
    unfold get
    rcases h1 : use w fd addr s with ⟨r1, s1⟩
    rw [exec_use h1]
    simp only []
    by_cases c1 : r1 < 0
    · simp [if_pos c1]
    rw [if_neg c1, if_neg c1]
    rcases h2 : write w fd [reg] s1 with ⟨r2, s2⟩
    rw [exec_write h2]
    simp only []
    by_cases c2 : r2 < 0
    · simp [if_pos c2]
    rw [if_neg c2, if_neg c2]
    rcases h3 : read w fd size s2 with ⟨r3, s3⟩
    rw [exec_read h3]
    simp only []
    simp only [exec, List.nil_append, ite_self]
  | set fd addr reg data =>
    show set w fd addr reg data s = exec w fd [.use addr, .write [reg], .write data] ⟨-1, []⟩ s
    unfold set
    rcases h1 : use w fd addr s with ⟨r1, s1⟩
    rw [exec_use h1]
    simp only []
    by_cases c1 : r1 < 0
    · simp [if_pos c1]
    rw [if_neg c1, if_neg c1]
    rcases h2 : write w fd [reg] s1 with ⟨r2, s2⟩
    rw [exec_write h2]
    simp only []
    by_cases c2 : r2 < 0
    · simp [if_pos c2]
    rw [if_neg c2, if_neg c2]
    rcases h3 : write w fd data s2 with ⟨r3, s3⟩
    rw [exec_write h3]
    simp only []
    simp only [exec, ite_self]
  | send fd addr data =>
    show send w fd addr data s = exec w fd [.use addr, .write data] ⟨-1, []⟩ s
    unfold send
    rcases h1 : use w fd addr s with ⟨r1, s1⟩
    rw [exec_use h1]
    simp only []
    by_cases c1 : r1 < 0
    · simp [if_pos c1]
    rw [if_neg c1, if_neg c1]
    rcases h2 : write w fd data s1 with ⟨r2, s2⟩
    rw [exec_write h2]
    simp only []
    simp only [exec, ite_self]
  | getSet fd addr reg data =>
    show getSet w fd addr reg data s = exec w fd [.use addr, .write [reg], .read data.length, .write data] ⟨-1, []⟩ s
    unfold getSet
    rcases h1 : use w fd addr s with ⟨r1, s1⟩
    rw [exec_use h1]
    simp only []
    by_cases c1 : r1 < 0
    · rw [if_pos c1, if_pos c1, use_minus hm _ _ _ _ _ h1 c1]
    rw [if_neg c1, if_neg c1]
    rcases h2 : write w fd [reg] s1 with ⟨r2, s2⟩
    rw [exec_write h2]
    simp only []
    by_cases c2 : r2 < 0
    · rw [if_pos c2, if_pos c2, write_minus hm _ _ _ _ _ h2 c2]
    rw [if_neg c2, if_neg c2]
    rcases h3 : read w fd data.length s2 with ⟨r3, s3⟩
    rw [exec_read h3]
    simp only []
    by_cases c3 : r3.rc < 0
    · simp [if_pos c3]
    rw [if_neg c3, if_neg c3]
    rcases h4 : write w fd data s3 with ⟨r4, s4⟩
    rw [exec_write h4]
    simp only []
    simp only [exec, List.nil_append, ite_self]
  | setGet fd addr reg data =>
    show setGet w fd addr reg data s = exec w fd [.use addr, .write [reg], .write data, .read data.length] ⟨-1, []⟩ s
    unfold setGet
    rcases h1 : use w fd addr s with ⟨r1, s1⟩
    rw [exec_use h1]
    simp only []
    by_cases c1 : r1 < 0
    · rw [if_pos c1, if_pos c1, use_minus hm _ _ _ _ _ h1 c1]
    rw [if_neg c1, if_neg c1]
    rcases h2 : write w fd [reg] s1 with ⟨r2, s2⟩
    rw [exec_write h2]
    simp only []
    by_cases c2 : r2 < 0
    · rw [if_pos c2, if_pos c2, write_minus hm _ _ _ _ _ h2 c2]
    rw [if_neg c2, if_neg c2]
    rcases h3 : write w fd data s2 with ⟨r3, s3⟩
    rw [exec_write h3]
    simp only []
    by_cases c3 : r3 < 0
    · simp [if_pos c3]
    rw [if_neg c3, if_neg c3]
    rcases h4 : read w fd data.length s3 with ⟨r4, s4⟩
    rw [exec_read h4]
    simp only []
    simp only [exec, List.nil_append, ite_self]

/-- The operation that is in progress. -/
def now (th : Thread) : List Op := match th.running with | some (op, _, _) => [op] | none => []

/-- What holds in every state of the process. -/
structure Inv (w : World σ) (todo : Nat → List Op) (s : σ) (x : Sys σ) (h : List (Nat × Op × Option Result)) : Prop where
  told : ∀ t, (x.threads t).results = told t h
  asked : ∀ t, asked t h ++ now (x.threads t) ++ (x.threads t).todo = todo t
  holds : ∀ t, (x.threads t).running ≠ none ↔ x.holder = some t
  live : ∀ t, (x.threads t).running ≠ none → (x.threads t).cancelled = false
  free : x.holder = none → Serial w s h x.world
  busy : ∀ t op cs r, (x.threads t).running = some (op, cs, r) → ∃ a, Serial w s h a ∧ exec w op.fd cs r x.world = exec w op.fd op.calls ⟨-1, []⟩ a ∧
    (cs = [] ∨ ∃ pre, pre ++ cs = op.calls ∧ Part w op.fd ⟨-1, []⟩ a pre r x.world)

theorem told_append (t u : Nat) (h : List (Nat × Op × Option Result)) (op : Op) (r : Option Result) :
    told t (h ++ [(u, op, r)]) = told t h ++ (if u = t then r.toList else []) := by
  simp only [told, List.filterMap_append]
  congr 1
  by_cases hu : u = t
  · cases r <;> simp [hu]
  · simp [hu]

theorem asked_append (t u : Nat) (h : List (Nat × Op × Option Result)) (op : Op) (r : Option Result) :
    asked t (h ++ [(u, op, r)]) = asked t h ++ (if u = t then [op] else []) := by
  simp only [asked, List.filterMap_append]
  congr 1
  by_cases hu : u = t
  · simp [hu]
  · simp [hu]

theorem inv_step {w : World σ} (hm : Minus w) {todo : Nat → List Op} {s : σ} {x y : Sys σ} {h : List (Nat × Op × Option Result)} (hi : Inv w todo s x h) (hs : Step w x y) :
    ∃ h', Inv w todo s y h' := by
  have only : ∀ t u, (x.threads t).running ≠ none → (x.threads u).running ≠ none → t = u := by
    intro t u ht hu
    have h1 := (hi.holds t).mp ht
    rw [(hi.holds u).mp hu] at h1
    exact (Option.some.inj h1).symm
  cases hs with
  | lock t op rest results ht hh =>
    have hn : ∀ u, (x.threads u).running = none := by
      intro u
      cases hu : (x.threads u).running with
      | none => rfl
      | some z => have := (hi.holds u).mp (by rw [hu]; simp); rw [hh] at this; cases this
    refine ⟨h, ?_, ?_, ?_, ?_, ?_, ?_⟩
    · intro u
      by_cases e : u = t
      · subst e; have := hi.told u; rw [ht] at this; simpa [Sys.put] using this
      · simpa [Sys.put, e] using hi.told u
    · intro u
      by_cases e : u = t
      · subst e; have := hi.asked u; rw [ht] at this; simpa [Sys.put, now] using this
      · simpa [Sys.put, e] using hi.asked u
    · intro u
      by_cases e : u = t
      · subst e; simp [Sys.put]
      · simp [Sys.put, e, hn u]; exact fun h => e h.symm
    · intro u
      by_cases e : u = t
      · subst e; simp [Sys.put]
      · simpa [Sys.put, e] using hi.live u
    · intro hf; simp [Sys.put] at hf
    · intro u op' cs r hu
      by_cases e : u = t
      · subst e
        simp [Sys.put] at hu
        obtain ⟨rfl, rfl, rfl⟩ := hu
        exact ⟨x.world, hi.free hh, rfl, Or.inr ⟨[], rfl, .nil⟩⟩
      · simp [Sys.put, e, hn u] at hu
  | call t rest op c cs r results ht =>
    have hr : (x.threads t).running ≠ none := by rw [ht]; simp
    refine ⟨h, ?_, ?_, ?_, ?_, ?_, ?_⟩
    · intro u
      by_cases e : u = t
      · subst e; have := hi.told u; rw [ht] at this; simpa [Sys.put] using this
      · simpa [Sys.put, e] using hi.told u
    · intro u
      by_cases e : u = t
      · subst e; have := hi.asked u; rw [ht] at this; simpa [Sys.put, now] using this
      · simpa [Sys.put, e] using hi.asked u
    · intro u
      by_cases e : u = t
      · subst e; have := (hi.holds u).mp hr; simp [Sys.put, this]
      · simpa [Sys.put, e] using hi.holds u
    · intro u
      by_cases e : u = t
      · subst e; simp [Sys.put]
      · simpa [Sys.put, e] using hi.live u
    · intro hf
      have := (hi.holds t).mp hr
      simp only [Sys.put] at hf
      rw [hf] at this; cases this
    · intro u op' cs' r' hu
      by_cases e : u = t
      · subst e
        obtain ⟨a, h1, h2, h3⟩ := hi.busy u op (c :: cs) r (by rw [ht])
        simp [Sys.put] at hu
        obtain ⟨rfl, rfl, rfl⟩ := hu
        refine ⟨a, h1, ?_, ?_⟩
        · rw [← h2, exec]
          simp only [Sys.put]
          split
          · rfl
          · rfl
        · rcases h3 with h3 | ⟨pre, h3, h4⟩
          · cases h3
          · by_cases hc : (perform w op.fd c r x.world).1.rc < 0
            · left; simp [hc]
            · right
              refine ⟨pre ++ [c], ?_, ?_⟩
              · rw [if_neg hc]; simpa using h3
              · exact .more h4 rfl (by omega)
      · exfalso
        have : (x.threads u).running ≠ none := by
          simp [Sys.put, e] at hu
          rw [hu]; simp
        exact e (only u t this hr)
  | unlock t rest op r results ht =>
    have hr : (x.threads t).running ≠ none := by rw [ht]; simp
    have hn : ∀ u, u ≠ t → (x.threads u).running = none := by
      intro u e
      cases hu : (x.threads u).running with
      | none => rfl
      | some z => exact absurd (only u t (by rw [hu]; simp) hr) e
    obtain ⟨a, h1, h2, -⟩ := hi.busy t op [] r (by rw [ht])
    refine ⟨h ++ [(t, op, some r)], ?_, ?_, ?_, ?_, ?_, ?_⟩
    · intro u
      rw [told_append]
      by_cases e : u = t
      · subst e; have := hi.told u; rw [ht] at this; simp at this; simp [Sys.put, this]
      · simpa [Sys.put, e, Ne.symm e] using hi.told u
    · intro u
      rw [asked_append]
      by_cases e : u = t
      · subst e; have := hi.asked u; rw [ht] at this; simpa [Sys.put, now] using this
      · simpa [Sys.put, e, Ne.symm e] using hi.asked u
    · intro u
      by_cases e : u = t
      · subst e; simp [Sys.put]
      · simp [Sys.put, e, hn u e]
    · intro u
      by_cases e : u = t
      · subst e; simp [Sys.put]
      · simpa [Sys.put, e] using hi.live u
    · intro _
      refine .whole t op h1 ?_
      rw [whole_exec hm, ← h2]
      rfl
    · intro u op' cs' r' hu
      by_cases e : u = t
      · subst e; simp [Sys.put] at hu
      · simp [Sys.put, e, hn u e] at hu
  | cancel t rest op c cs r results ht =>
    have hr : (x.threads t).running ≠ none := by rw [ht]; simp
    have hn : ∀ u, u ≠ t → (x.threads u).running = none := by
      intro u e
      cases hu : (x.threads u).running with
      | none => rfl
      | some z => exact absurd (only u t (by rw [hu]; simp) hr) e
    obtain ⟨a, h1, -, h3⟩ := hi.busy t op (c :: cs) r (by rw [ht])
    refine ⟨h ++ [(t, op, none)], ?_, ?_, ?_, ?_, ?_, ?_⟩
    · intro u
      rw [told_append]
      by_cases e : u = t
      · subst e; have := hi.told u; rw [ht] at this; simp at this; simp [Sys.put, this]
      · simpa [Sys.put, e, Ne.symm e] using hi.told u
    · intro u
      rw [asked_append]
      by_cases e : u = t
      · subst e; have := hi.asked u; rw [ht] at this; simpa [Sys.put, now] using this
      · simpa [Sys.put, e, Ne.symm e] using hi.asked u
    · intro u
      by_cases e : u = t
      · subst e; simp [Sys.put]
      · simp [Sys.put, e, hn u e]
    · intro u
      by_cases e : u = t
      · subst e; simp [Sys.put]
      · simpa [Sys.put, e] using hi.live u
    · intro _
      rcases h3 with h3 | ⟨pre, h3, h4⟩
      · cases h3
      · refine .cut t op h1 ⟨pre, r, ⟨c :: cs, h3⟩, ?_, h4⟩
        intro e
        rw [← h3] at e
        simp at e
    · intro u op' cs' r' hu
      by_cases e : u = t
      · subst e; simp [Sys.put] at hu
      · simp [Sys.put, e, hn u e] at hu

theorem inv_steps {w : World σ} (hm : Minus w) {todo : Nat → List Op} {s : σ} {x : Sys σ} (hs : Steps w (start todo s) x) : ∃ h, Inv w todo s x h := by
  induction hs with
  | here =>
    refine ⟨[], fun t => rfl, fun t => by simp [start, asked, now], fun t => by simp [start], fun t h => by simp [start] at h, fun _ => .nil, fun t op cs r h => by simp [start] at h⟩
  | step _ h ih =>
    obtain ⟨k, hk⟩ := ih
    exact inv_step hm hk h

end Diminuto.I2c
