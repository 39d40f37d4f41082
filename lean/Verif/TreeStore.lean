import Verif.TreeHistory
import Verif.TreeStoreSpec

/-!
# Lemmas about the Tree: stores
-/

namespace Diminuto.Tree

open Frame T

variable {N M : Nat} {h h' : Heap N M} {rt : Fin M} {ts : Fin M → T N}

theorem Rep.step (R : Rep h ts) (op : Op N M) :
    (∀ h' r, op.step h = some (h', r) → ∃ ts', Rep h' ts') ∧ (op.Legal h → op.step h ≠ none) := by
  cases op with
  | insertRoot x rt =>
    simp only [Op.step]
    rcases R.insertRoot x rt with ⟨_, _, h', t', e, _, R'⟩ | ⟨_, e⟩
    · rw [e]; exact ⟨by rintro _ _ ⟨⟩; exact ⟨_, R'⟩, by simp⟩
    · rw [e]; exact ⟨by rintro _ _ ⟨⟩; exact ⟨_, R⟩, by simp⟩
  | insertLeft x p =>
    simp only [Op.step, Op.Legal]
    cases hp : (h.cell p).root with
    | none =>
      rw [insertLeft_orphan R hp]
      refine ⟨?_, by simp⟩
      split
      · simp
      · rintro _ _ ⟨⟩; exact ⟨_, R⟩
    | some rt =>
      rcases R.insertLeft x p hp with ⟨_, _, h', t', _, _, e, _, _, R'⟩ | ⟨_, e⟩
      · rw [e]; exact ⟨by rintro _ _ ⟨⟩; exact ⟨_, R'⟩, by simp⟩
      · rw [e]; exact ⟨by rintro _ _ ⟨⟩; exact ⟨_, R⟩, by simp⟩
  | insertRight x p =>
    simp only [Op.step, Op.Legal]
    cases hp : (h.cell p).root with
    | none =>
      rw [insertRight_orphan R hp]
      refine ⟨?_, by simp⟩
      split
      · simp
      · rintro _ _ ⟨⟩; exact ⟨_, R⟩
    | some rt =>
      rcases R.insertRight x p hp with ⟨_, _, h', t', _, _, e, _, _, R'⟩ | ⟨_, e⟩
      · rw [e]; exact ⟨by rintro _ _ ⟨⟩; exact ⟨_, R'⟩, by simp⟩
      · rw [e]; exact ⟨by rintro _ _ ⟨⟩; exact ⟨_, R⟩, by simp⟩
  | remove x =>
    simp only [Op.step]
    rcases R.remove x with ⟨_, h', t', _, e, _, R'⟩ | ⟨_, e⟩
    · rw [e]; exact ⟨by rintro _ _ ⟨⟩; exact ⟨_, R'⟩, by simp⟩
    · rw [e]; exact ⟨by rintro _ _ ⟨⟩; exact ⟨_, R⟩, by simp⟩
  | replace x y =>
    simp only [Op.step]
    rcases R.replace x y with ⟨_, h', t', _, _, _, _, e, _, _, R'⟩ | ⟨_, e⟩
    · rw [e]; exact ⟨by rintro _ _ ⟨⟩; exact ⟨_, R'⟩, by simp⟩
    · rw [e]; exact ⟨by rintro _ _ ⟨⟩; exact ⟨_, R⟩, by simp⟩
  | put cmp rt x rep =>
    simp only [Op.step]
    rcases R.put cmp rt x rep with ⟨_, e⟩ | ⟨_, h', t', _, _, e, _, _, R', _⟩ |
      ⟨_, _, h', t', _, _, _, e, _, _, _, R', _⟩
    · rw [e]; exact ⟨by rintro _ _ ⟨⟩; exact ⟨_, R⟩, by simp⟩
    · rw [e]; exact ⟨by rintro _ _ ⟨⟩; exact ⟨_, R'⟩, by simp⟩
    · rw [e]; exact ⟨by rintro _ _ ⟨⟩; exact ⟨_, R'⟩, by simp⟩

theorem Reach.rep (hr : Reach h) : ∃ ts, Rep h ts := by
  induction hr with
  | fresh => exact ⟨_, Rep.fresh⟩
  | step _ e ih =>
    obtain ⟨ts, R⟩ := ih
    exact (R.step _).1 _ _ e

theorem collect_next {t : T N} (hh : Holds h rt t) {A B : List (Fin N)} (e : t.inorder = A ++ B) {fuel : Nat}
    (hf : B.length ≤ fuel) : collect (next h) fuel B.head? = some B := by
  induction B generalizing A fuel with
  | nil => cases fuel <;> rfl
  | cons x B ih =>
    cases fuel with
    | zero => simp at hf
    | succ fuel =>
      simp only [List.head?_cons, collect, next_spec hh e, Option.bind_some]
      rw [ih (A := A ++ [x]) (by rw [e]; simp) (by simpa using hf)]
      rfl

theorem collect_prev {t : T N} (hh : Holds h rt t) {A B : List (Fin N)} (e : t.inorder = A ++ B) {fuel : Nat}
    (hf : A.length ≤ fuel) : collect (prev h) fuel A.reverse.head? = some A.reverse := by
  induction A using List.reverseRecOn generalizing B fuel with
  | nil => cases fuel <;> rfl
  | append_singleton A x ih =>
    cases fuel with
    | zero => simp at hf
    | succ fuel =>
      simp only [List.reverse_append, List.reverse_cons, List.reverse_nil, List.nil_append,
        List.cons_append, List.head?_cons, collect]
      rw [prev_spec hh (A := A) (B := B) (by rw [e]; simp), Option.bind_some,
        ih (B := x :: B) (by rw [e]; simp) (by simpa using hf)]
      rfl

theorem forward_spec {t : T N} (hh : Holds h rt t) : forward h rt = some t.inorder := by
  unfold forward
  rw [first_spec hh, Option.bind_some, collect_next hh (A := []) rfl (nodup_length hh.2.2)]

theorem backward_spec {t : T N} (hh : Holds h rt t) : backward h rt = some t.inorder.reverse := by
  unfold backward
  rw [last_spec hh, Option.bind_some, collect_prev hh (B := []) (by simp) (nodup_length hh.2.2)]

variable {cmp : Fin M → Fin N → Fin N → Int} {own : Owner N M}

/-- The trees are sorted and hold the nodes that the stores own. -/
structure Sto (cmp : Fin M → Fin N → Fin N → Int) (h : Heap N M) (ts : Fin M → T N) (own : Owner N M) :
    Prop where
  rep : Rep h ts
  sorted : ∀ rt, (ts rt).inorder.Pairwise fun a b => cmp rt a b < 0
  own : ∀ x, (h.cell x).root = own x

theorem IsOrder.mono {c : Fin N → Fin N → Int} (hc : IsOrder c) {L : List (Fin N)}
    (hs : L.Pairwise fun a b => c a b < 0) (x : Fin N) :
    L.Pairwise fun a b => 0 ≤ c a x → 0 < c b x := by
  refine hs.imp fun {a b} hab ha => ?_
  by_contra hb
  have h1 : c x a ≤ 0 := by
    by_contra h2
    have := (hc.flip a x).mpr (by omega)
    omega
  have h2 := hc.trans b x a (by omega) h1
  have h3 := (hc.flip a b).mp hab
  omega

theorem Sto.mem (S : Sto cmp h ts own) {x : Fin N} {rt : Fin M} : x ∈ (ts rt).inorder ↔ own x = some rt := by
  rw [S.rep.mem_iff, S.own]

theorem Sto.lookup_none (S : Sto cmp h ts own) {rt : Fin M} {q : Fin N}
    (hn : ∀ n ∈ (ts rt).inorder, cmp rt n q ≠ 0) : lookup cmp own rt q = none := by
  unfold lookup
  rw [List.find?_eq_none]
  intro n _ hn'
  simp only [Bool.and_eq_true, decide_eq_true_eq] at hn'
  exact hn n (S.mem.mpr hn'.1) hn'.2

theorem Sto.lookup_some (S : Sto cmp h ts own) {rt : Fin M} {q n : Fin N} (h1 : n ∈ (ts rt).inorder)
    (h2 : cmp rt n q = 0) (h3 : ∀ a ∈ (ts rt).inorder, cmp rt a q = 0 → a = n) :
    lookup cmp own rt q = some n := by
  cases hl : lookup cmp own rt q with
  | none =>
    unfold lookup at hl
    rw [List.find?_eq_none] at hl
    have := hl n (List.mem_finRange n)
    simp only [Bool.and_eq_true, decide_eq_true_eq, not_and] at this
    exact absurd h2 (this (S.mem.mp h1))
  | some m =>
    unfold lookup at hl
    have := List.find?_some hl
    simp only [Bool.and_eq_true, decide_eq_true_eq] at this
    rw [h3 m (S.mem.mpr this.1) this.2]

theorem pairwise_sub {R : Fin N → Fin N → Prop} {A B : List (Fin N)} {n x : Fin N}
    (h : (A ++ n :: B).Pairwise R) (h1 : ∀ a ∈ A, R a x) (h2 : ∀ b ∈ B, R x b) : (A ++ x :: B).Pairwise R := by
  simp only [List.pairwise_append, List.pairwise_cons, List.mem_cons] at h ⊢
  grind

theorem pairwise_ins {R : Fin N → Fin N → Prop} {A B : List (Fin N)} {x : Fin N}
    (h : (A ++ B).Pairwise R) (h1 : ∀ a ∈ A, R a x) (h2 : ∀ b ∈ B, R x b) : (A ++ x :: B).Pairwise R := by
  simp only [List.pairwise_append, List.pairwise_cons, List.mem_cons] at h ⊢
  grind

theorem sorted_update {t' : T N} (hs : ∀ rt, (ts rt).inorder.Pairwise fun a b => cmp rt a b < 0)
    (ht : t'.inorder.Pairwise fun a b => cmp rt a b < 0) (r : Fin M) :
    ((Function.update ts rt t') r).inorder.Pairwise fun a b => cmp r a b < 0 := by
  by_cases hr : r = rt
  · subst hr; simpa using ht
  · rw [Function.update_of_ne hr]; exact hs r

/-- Ownership after one tree has changed. -/
theorem own_update {own' : Owner N M} {t' : T N} (S : Sto cmp h ts own) (R' : Rep h' (Function.update ts rt t'))
    (h1 : ∀ z ∈ t'.inorder, own' z = some rt)
    (h2 : ∀ z, z ∉ t'.inorder → own' z = if z ∈ (ts rt).inorder then none else own z) (x : Fin N) :
    (h'.cell x).root = own' x := by
  by_cases hx : x ∈ t'.inorder
  · rw [h1 x hx]
    exact R'.mem_iff.mp (by simpa using hx)
  · rw [h2 x hx]
    by_cases hm : x ∈ (ts rt).inorder
    · rw [if_pos hm]
      cases hc : (h'.cell x).root with
      | none => rfl
      | some r =>
        have := R'.mem_iff.mpr hc
        by_cases hr : r = rt
        · subst hr; simp at this; exact absurd this hx
        · rw [Function.update_of_ne hr, S.mem] at this
          rw [S.mem.mp hm] at this
          exact absurd (Option.some.inj this).symm hr
    · rw [if_neg hm]
      cases hc : (h'.cell x).root with
      | none =>
        cases ho : own x with
        | none => rfl
        | some r =>
          have h3 := S.mem.mpr ho
          have hr : r ≠ rt := by rintro rfl; exact hm h3
          have := R'.mem_iff (x := x) (rt := r)
          rw [Function.update_of_ne hr] at this
          rw [this.mp h3] at hc
          simp at hc
      | some r =>
        have := R'.mem_iff.mpr hc
        by_cases hr : r = rt
        · subst hr; simp at this; exact absurd this hx
        · rw [Function.update_of_ne hr, S.mem] at this
          exact this.symm

theorem Sto.step (hc : ∀ rt, IsOrder (cmp rt)) (S : Sto cmp h ts own) (op : StoreOp N M) :
    ∃ h' ts', op.code cmp h = some (h', (op.spec cmp own).2) ∧ Sto cmp h' ts' (op.spec cmp own).1 := by
  cases op with
  | find rt q =>
    simp only [StoreOp.code, StoreOp.spec]
    rcases find_spec S.rep (fun n => cmp rt n q) rt ((hc rt).mono (S.sorted rt) q) with
      ⟨n, h1, h2, h3, h4⟩ | ⟨h1, h2⟩
    · exact ⟨h, ts, by rw [h2, S.lookup_some h1 h3 h4]; rfl, S⟩
    · exact ⟨h, ts, by rw [h1, S.lookup_none h2]; rfl, S⟩
  | remove x =>
    simp only [StoreOp.code, StoreOp.spec]
    rcases S.rep.remove x with ⟨rt, h', t', e1, e2, e3, R'⟩ | ⟨e1, e2⟩
    · have hx := e1
      rw [S.own] at e1
      rw [if_neg (by rw [e1]; simp)]
      refine ⟨h', _, e2, R', sorted_update S.sorted ?_, own_update S R' ?_ ?_⟩
      · rw [e3]; exact (S.sorted rt).sublist List.erase_sublist
      · intro z hz
        rw [e3] at hz
        have h1 : z ≠ x := by
          rintro rfl
          exact List.Nodup.not_mem_erase (S.rep.tr rt).holds.2.2 hz
        simp only []
        rw [Function.update_of_ne h1]
        exact S.mem.mp (List.mem_of_mem_erase hz)
      · intro z hz
        rw [e3] at hz
        by_cases h1 : z = x
        · subst h1
          rw [if_pos (S.mem.mpr e1)]
          simp
        · simp only []
          rw [Function.update_of_ne h1, if_neg]
          intro hm
          exact hz ((List.mem_erase_of_ne h1).mpr hm)
    · rw [S.own] at e1
      rw [if_pos e1]
      exact ⟨h, ts, e2, S⟩
  | put rt x rep =>
    simp only [StoreOp.code, StoreOp.spec]
    have hm := (hc rt).mono (S.sorted rt) x
    have hlt : ∀ b, 0 < cmp rt b x → cmp rt x b < 0 := fun b hb => ((hc rt).flip x b).mpr hb
    rcases S.rep.put (cmp rt) rt x rep with ⟨e1, e2⟩ | ⟨e1, h', t', A, B, e2, e3, e4, R', e5⟩ |
      ⟨e0, e1, h', t', n, A, B, e2, e6, e3, e4, R', e5⟩
    · by_cases hx : own x = none
      · rw [if_neg (by simp [hx])]
        rcases e1 with e1 | ⟨rfl, n, h1, h2⟩
        · rw [S.own] at e1; exact absurd hx e1
        · have : lookup cmp own rt x ≠ none := by
            unfold lookup
            rw [Ne, List.find?_eq_none]
            intro hn
            have := hn n (List.mem_finRange n)
            simp only [Bool.and_eq_true, decide_eq_true_eq, not_and] at this
            exact this (S.mem.mp h1) h2
          obtain ⟨y, hy⟩ := Option.ne_none_iff_exists'.mp this
          rw [hy]
          exact ⟨h, ts, e2, S⟩
      · rw [if_pos hx]
        exact ⟨h, ts, e2, S⟩
    · obtain ⟨g1, g2⟩ := e5 hm
      rw [S.own] at e1
      rw [if_neg (by simp [e1]), S.lookup_none (by
        intro n hn
        rw [e3, List.mem_append] at hn
        rcases hn with hn | hn
        · have := g1 n hn; omega
        · have := g2 n hn; omega)]
      refine ⟨h', _, e2, R', sorted_update S.sorted ?_, own_update S R' ?_ ?_⟩
      · rw [e4]
        exact pairwise_ins (e3 ▸ S.sorted rt) g1 fun b hb => hlt b (g2 b hb)
      · intro z hz
        by_cases h1 : z = x
        · subst h1; simp
        · simp only [Function.update_of_ne h1]
          rw [← S.mem, e3]
          rw [e4] at hz
          simp only [List.mem_append, List.mem_cons, h1, false_or] at hz ⊢
          exact hz
      · intro z hz
        rw [e4] at hz
        simp only [List.mem_append, List.mem_cons, not_or] at hz
        simp only [Function.update_of_ne hz.2.1]
        rw [if_neg]
        rw [e3]
        simp only [List.mem_append, not_or]
        exact ⟨hz.1, hz.2.2⟩
    · obtain ⟨g1, g2⟩ := e5 hm
      rw [S.own] at e1
      have hnx : n ∈ (ts rt).inorder := by rw [e3]; simp
      rw [if_neg (by simp [e1]), S.lookup_some hnx e6 (by
        intro a ha h0
        rw [e3, List.mem_append, List.mem_cons] at ha
        rcases ha with ha | ha | ha
        · have := g1 a ha; omega
        · exact ha
        · have := g2 a ha; omega)]
      subst e0
      simp only [if_true]
      have hne : n ≠ x := by
        rintro rfl
        rw [S.mem.mp hnx] at e1
        simp at e1
      have hd := (S.rep.tr rt).holds.2.2
      rw [e3] at hd
      refine ⟨h', _, e2, R', sorted_update S.sorted ?_, own_update S R' ?_ ?_⟩
      · rw [e4]
        exact pairwise_sub (e3 ▸ S.sorted rt) g1 fun b hb => hlt b (g2 b hb)
      · intro z hz
        by_cases h1 : z = x
        · subst h1; simp
        · have h2 : z ≠ n := by
            rintro rfl
            rw [e4] at hz
            simp only [List.nodup_append, List.nodup_cons, List.mem_append, List.mem_cons] at hd hz
            grind
          rw [Function.update_of_ne h1, Function.update_of_ne h2, ← S.mem, e3]
          rw [e4] at hz
          simp only [List.mem_append, List.mem_cons, h1, false_or] at hz ⊢
          rcases hz with hz | hz
          · exact Or.inl hz
          · exact Or.inr (Or.inr hz)
      · intro z hz
        rw [e4] at hz
        simp only [List.mem_append, List.mem_cons, not_or] at hz
        rw [Function.update_of_ne hz.2.1]
        by_cases h1 : z = n
        · subst h1; rw [if_pos hnx]; simp
        · rw [Function.update_of_ne h1, if_neg]
          rw [e3]
          simp only [List.mem_append, List.mem_cons, not_or]
          exact ⟨hz.1, h1, hz.2.2⟩

theorem Sto.fresh : Sto cmp (fresh N M) (fun _ => leaf) (fun _ => none) :=
  ⟨Rep.fresh, fun _ => by simp [inorder], fun _ => rfl⟩

theorem Sto.run (hc : ∀ rt, IsOrder (cmp rt)) (S : Sto cmp h ts own) (ops : List (StoreOp N M)) :
    ∃ h' ts', codeRun cmp h ops = some (h', (specRun cmp own ops).2) ∧
      Sto cmp h' ts' (specRun cmp own ops).1 := by
  induction ops generalizing h ts own with
  | nil => exact ⟨h, ts, rfl, S⟩
  | cons op ops ih =>
    obtain ⟨h1, ts1, e1, S1⟩ := S.step hc op
    obtain ⟨h2, ts2, e2, S2⟩ := ih S1
    refine ⟨h2, ts2, ?_, S2⟩
    simp only [codeRun, e1, Option.bind_some, e2, Option.map_some, specRun]

end Diminuto.Tree
