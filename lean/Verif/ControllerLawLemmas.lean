import Verif.ControllerLawSpec

/-!
# Lemmas: the law of the Controller as a function of the history
-/

namespace Diminuto.Controller

theorem chk_some {x y : Int} (h : chk x = some y) : y = x := by
  unfold chk at h
  split at h <;> simp_all

theorem applyGain_scaled {v w : Int} {g : Gain} (hd : g.denominator ≠ 0)
    (h : applyGain v g = some w) : w = scaled g v := by
  unfold applyGain at h
  unfold scaled
  rw [if_neg hd] at h
  split at h
  · rename_i h0
    simp only [Option.some.injEq] at h
    rw [← h, h0]; simp
  · split at h
    · rename_i h1
      simp only [Option.some.injEq] at h
      rw [← h, h1, Int.mul_tdiv_cancel _ hd]
    · split at h
      · rename_i h1
        rw [h1, Int.tdiv_one, chk_some h]
      · split at h
        · rename_i h1
          rw [h1, Int.mul_one, chk_some h]
        · simp only [bind, Option.bind_eq_some_iff] at h
          obtain ⟨a, ha, hb⟩ := h
          rw [chk_some hb, chk_some ha]

theorem limitWindup_eq {w raw i : Int} (hw : 0 ≤ w) (h : limitWindup w raw = some i) :
    i = max (-w) (min w raw) := by
  unfold limitWindup at h
  split at h
  · simp only [Option.some.injEq] at h; omega
  · simp only [bind, Option.bind_eq_some_iff] at h
    obtain ⟨m, hm, h⟩ := h
    have := chk_some hm
    split at h <;> simp only [Option.some.injEq] at h <;> omega

/-- What the state remembers of the history. -/
def Remembers (p : Params) (hist : List (Int × Int × Int)) (s : State) : Prop :=
  (hist = [] ∧ s.initialized = false) ∨
  (hist ≠ [] ∧ s.initialized = true ∧ s.sample = sampleOf p hist ∧ s.previous = sampleOf p hist ∧
    s.integral = integralOf p hist)

theorem law_step {p : Params} (hp : Proper p) (hw : 0 ≤ p.windup) {hist : List (Int × Int × Int)}
    {s s' : State} {t i o x : Int} (hr : Remembers p hist s)
    (h : controller p s t i o = some (s', x)) :
    Remembers p ((t, i, o) :: hist) s' ∧ s'.delta = correctionOf p ((t, i, o) :: hist) := by
  obtain ⟨hp1, hp2, hp3, hp4⟩ := hp
  simp only [controller, bind, Option.bind_eq_some_iff, Option.some.injEq, Prod.mk.injEq] at h
  obtain ⟨sample, hsample, prop, hprop, tot, htot, gi, hgi, raw, hraw, integral, hint, tot2, htot2,
    diff, hdiff, gd, hgd, tot3, htot3, delta, hdelta, sum, hsum, hs, hx⟩ := h
  have e1 := chk_some hprop
  have e2 := applyGain_scaled hp1 htot
  have e3 := applyGain_scaled hp2 hgi
  have e4 := chk_some hraw
  have e5 := limitWindup_eq hw hint
  have e6 := chk_some htot2
  have e7 := chk_some hdiff
  have e8 := applyGain_scaled hp3 hgd
  have e9 := chk_some htot3
  have e10 := applyGain_scaled hp4 hdelta
  subst hs
  have key : sample = sampleOf p ((t, i, o) :: hist) ∧
      (prepare s i).integral = integralOf p hist ∧ diff = changeOf p ((t, i, o) :: hist) := by
    rcases hr with ⟨rfl, hi⟩ | ⟨hne, hi, hs1, hs2, hs3⟩
    · have hs0 : prepare s i =
          { s with integral := 0, previous := i, sample := i, initialized := true } := by
        unfold prepare; rw [hi]; rfl
      rw [hs0] at hsample e7 ⊢
      have : sample = i := by
        unfold filtered at hsample
        split at hsample
        · simp only [bind, Option.bind_eq_some_iff, Option.some.injEq] at hsample
          obtain ⟨a, ha, hb⟩ := hsample
          have := chk_some ha
          omega
        · simpa using hsample.symm
      refine ⟨this, rfl, ?_⟩
      rw [e7, this]
      simp [changeOf]
    · have hs0 : prepare s i = s := by unfold prepare; rw [hi]; rfl
      rw [hs0] at hsample e7 ⊢
      cases hist with
      | nil => exact absurd rfl hne
      | cons c rest =>
        have : sample = sampleOf p ((t, i, o) :: c :: rest) := by
          unfold filtered at hsample
          unfold sampleOf
          split at hsample
          · rename_i hf
            simp only [bind, Option.bind_eq_some_iff, Option.some.injEq] at hsample
            obtain ⟨a, ha, hb⟩ := hsample
            rw [if_pos hf, ← hs1, ← hb, chk_some ha]
          · rename_i hf
            rw [if_neg hf]
            simpa using hsample.symm
        refine ⟨this, hs3, ?_⟩
        rw [e7, this, hs2]
        rfl
  obtain ⟨k1, k2, k3⟩ := key
  have k4 : prop = errorOf p ((t, i, o) :: hist) := by rw [e1, k1]; rfl
  have k5 : integral = integralOf p ((t, i, o) :: hist) := by
    rw [e5, e4, e3, k2, k4]; rfl
  refine ⟨Or.inr ⟨by simp, rfl, k1, k1, k5⟩, ?_⟩
  show delta = _
  rw [e10, e9, e6, e2, e8, k3, k4, k5]
  rfl

/-- The run of the calls and what comes out of each. -/
theorem law_run {p : Params} (hp : Proper p) (hw : 0 ≤ p.windup) (hord : Ordered p)
    (calls : List (Int × Int × Int)) : ∀ (hist : List (Int × Int × Int)) (s s' : State) (xs : List Int),
    Remembers p hist s → run p s calls = some (s', xs) →
    ∀ pre t i o post, calls = pre ++ (t, i, o) :: post →
      ∃ x, xs[pre.length]? = some x ∧
        (Short (o + correctionOf p ((t, i, o) :: (pre.reverse ++ hist))) →
          LimitedTo p (o + correctionOf p ((t, i, o) :: (pre.reverse ++ hist))) x) := by
  induction calls with
  | nil => intro hist s s' xs _ _ pre t i o post he; simp at he
  | cons c rest ih =>
    intro hist s s' xs hr h pre t i o post he
    obtain ⟨t1, i1, o1⟩ := c
    simp only [run, bind, Option.bind_eq_some_iff, Option.some.injEq, Prod.mk.injEq] at h
    obtain ⟨⟨s1, x1⟩, h1, ⟨s2, xs2⟩, h2, hs2, hxs⟩ := h
    subst hxs
    subst hs2
    obtain ⟨hr1, hd⟩ := law_step hp hw hr h1
    cases pre with
    | nil =>
      simp only [List.nil_append, List.cons.injEq, Prod.mk.injEq] at he
      obtain ⟨⟨rfl, rfl, rfl⟩, rfl⟩ := he
      refine ⟨x1, rfl, fun hs => ?_⟩
      simp only [List.reverse_nil, List.nil_append] at hs ⊢
      rw [← hd] at hs ⊢
      exact controller_saturates_partial p hord s s1 _ _ _ x1 h1 hs
    | cons d pre =>
      simp only [List.cons_append, List.cons.injEq] at he
      obtain ⟨rfl, rfl⟩ := he
      obtain ⟨x, hx, hl⟩ := ih _ _ _ _ hr1 h2 pre t i o post rfl
      refine ⟨x, by simpa using hx, ?_⟩
      simpa using hl

end Diminuto.Controller
