import Verif.ThrottleLemmas

/-!
# Properties of the Throttle and the Shaper (C28, C29, C30, C58)

The specifications below use unbounded times and say nothing about how the
throttle keeps its state.
-/

namespace Diminuto.Throttle

/-! ## Specification -/

/-- The theoretical arrival time after a list of commits `(time, events)`: each commit
moves it to `max tat time + events * increment`. -/
def specTat (increment : Nat) (tat : Nat) (trace : List (Nat × Nat)) : Nat :=
  trace.foldl (fun a e => max a e.1 + e.2 * increment) tat

/-- The alarm given for each of a list of commits: it is cleared when the bucket has
drained, set when the traffic is ahead of schedule by more than the limit, and otherwise
stays as it was. -/
def specAlarms (increment limit : Nat) : Nat → Bool → List (Nat × Nat) → List Bool
  | _, _, [] => []
  | tat, alarm, (t, n) :: rest =>
    let a := if tat ≤ t then false else if t + limit < tat then true else alarm
    a :: specAlarms increment limit (max tat t + n * increment) a rest

/-- Times do not go backwards, successive commits are less than 2^64 ticks apart, and the
traffic is never ahead of schedule by 2^64 ticks. -/
def Sane (increment : Nat) : Nat → Nat → List (Nat × Nat) → Prop
  | _, _, [] => True
  | tat, last, (t, n) :: rest =>
    last ≤ t ∧ t - last < 2 ^ 64 ∧ n < 2 ^ 64 ∧ max tat t + n * increment - t < 2 ^ 64 ∧
      Sane increment (max tat t + n * increment) t rest

/-- The time of the last commit. -/
def lastTime (t0 : Nat) (trace : List (Nat × Nat)) : Nat :=
  trace.foldl (fun _ e => e.1) t0

/-- Every commit conforms: the traffic is not ahead of schedule by more than the limit. -/
def Conforms (increment limit : Nat) : Nat → List (Nat × Nat) → Prop
  | _, [] => True
  | tat, (t, n) :: rest =>
    tat ≤ t + limit ∧ Conforms increment limit (max tat t + n * increment) rest

/-! ## Running the code -/

/-- Admit each of a list of `(time, events)`. -/
def admits : Throttle → List (Nat × Nat) → List Bool × Throttle
  | s, [] => ([], s)
  | s, (t, n) :: rest =>
    let (a, s) := admitn s (BitVec.ofNat 64 t) (BitVec.ofNat 64 n)
    let (as, s) := admits s rest
    (a :: as, s)

theorem admits_rel (increment limit : Ticks) (trace : List (Nat × Nat)) :
    ∀ (s : Throttle) (tat last : Nat), Rel s tat last → AlarmInv s → s.limit = limit →
      s.increment = increment → Sane increment.toNat tat last trace →
      Rel (admits s trace).2 (specTat increment.toNat tat trace) (lastTime last trace) ∧
      (admits s trace).2.limit = limit ∧ (admits s trace).2.increment = increment ∧
      (admits s trace).1 = specAlarms increment.toNat limit.toNat tat s.alarmed1 trace := by
  induction trace with
  | nil => intro s tat last hr _ hl hi _; exact ⟨hr, hl, hi, rfl⟩
  | cons e rest ih =>
    intro s tat last hr ha hl hi hs
    obtain ⟨t, n⟩ := e
    obtain ⟨h1, h2, h3, h4, h5⟩ := hs
    subst hl hi
    obtain ⟨r1, r2, r3, r4, r5, r6⟩ := admitn_rel s tat last t n hr ha h1 h2 h3 h4
    have := ih _ _ _ r1 r2 r3 r4 h5
    simp only [admits, specTat, List.foldl_cons, lastTime, specAlarms]
    rw [r6, r5] at this
    refine ⟨this.1, this.2.1, this.2.2.1, ?_⟩
    rw [this.2.2.2, r5]

/-- **C28 (delay).** For every increment, limit and starting time, after any history of
admissions that does not run time backwards, the delay that a request returns is exactly
how far the traffic is ahead of schedule beyond the limit; the 64-bit clock may wrap any
number of times. -/
theorem throttle_delay_exact (s : Throttle) (increment limit : Ticks) (t0 : Nat)
    (trace : List (Nat × Nat)) (hs : Sane increment.toNat t0 t0 trace)
    (t : Nat) (hl : lastTime t0 trace ≤ t) (hg : t - lastTime t0 trace < 2 ^ 64) :
    (request (admits (init s increment limit (BitVec.ofNat 64 t0)) trace).2
      (BitVec.ofNat 64 t)).1.toNat = specTat increment.toNat t0 trace - t - limit.toNat := by
  obtain ⟨h1, h2, h3, h4, _⟩ := init_rel s increment limit t0
  obtain ⟨r1, r2, _, _⟩ := admits_rel increment limit trace _ _ _ h1 h2 h3 h4 hs
  have := (request_rel _ _ _ t r1 hl hg).1
  rw [r2] at this
  exact this

/-- **C28 (alarm).** The alarms the code gives are exactly the specified ones. -/
theorem throttle_alarm_exact (s : Throttle) (increment limit : Ticks) (t0 : Nat)
    (trace : List (Nat × Nat)) (hs : Sane increment.toNat t0 t0 trace) :
    (admits (init s increment limit (BitVec.ofNat 64 t0)) trace).1 =
      specAlarms increment.toNat limit.toNat t0 false trace := by
  obtain ⟨h1, h2, h3, h4, h5⟩ := init_rel s increment limit t0
  have := (admits_rel increment limit trace _ _ _ h1 h2 h3 h4 hs).2.2.2
  rwa [h5] at this

/-- Requests made between commits leave no trace: the next request behaves as if they had
not been made. -/
theorem throttle_request_idempotent (s : Throttle) (a b : Ticks) :
    request (request s a).2 b = request s b := by
  unfold request
  dsimp only
  split <;> (try split) <;> simp only <;> rfl

/-- The caller honours the throttle: before each admission at `t` it made a request at some
time `r` since the last one, and waited at least the delay it was told. -/
def Honours (s : Throttle) (last : Nat) : List (Nat × Nat) → Prop
  | [] => True
  | (t, n) :: rest =>
    (∃ r, last ≤ r ∧ r + (request s (BitVec.ofNat 64 r)).1.toNat ≤ t) ∧
      Honours (admitn s (BitVec.ofNat 64 t) (BitVec.ofNat 64 n)).2 t rest

theorem specAlarms_of_conforms (increment limit : Nat) (trace : List (Nat × Nat)) :
    ∀ tat : Nat, Conforms increment limit tat trace →
      ∀ a ∈ specAlarms increment limit tat false trace, a = false := by
  induction trace with
  | nil => intro _ _ a ha; simp [specAlarms] at ha
  | cons e rest ih =>
    obtain ⟨t, n⟩ := e
    intro tat hc a ha
    obtain ⟨h1, h2⟩ := hc
    have h0 : ¬ t + limit < tat := by omega
    simp only [specAlarms, h0, if_false, ite_self, List.mem_cons] at ha
    rcases ha with rfl | ha
    · rfl
    · exact ih _ h2 a ha

theorem conforms_of_specAlarms (increment limit : Nat) (trace : List (Nat × Nat)) :
    ∀ (tat : Nat) (al : Bool), (∀ a ∈ specAlarms increment limit tat al trace, a = false) →
      Conforms increment limit tat trace := by
  induction trace with
  | nil => intro _ _ _; trivial
  | cons e rest ih =>
    obtain ⟨t, n⟩ := e
    intro tat al h
    simp only [specAlarms, List.mem_cons, forall_eq_or_imp] at h
    refine ⟨?_, ih _ _ h.2⟩
    by_cases h0 : t + limit < tat
    · have h1 : ¬ tat ≤ t := by omega
      have h2 := h.1
      simp [h0, h1] at h2
    · omega

theorem conforms_of_honours (trace : List (Nat × Nat)) :
    ∀ (s : Throttle) (tat last : Nat), Rel s tat last → AlarmInv s →
      Sane s.increment.toNat tat last trace → Honours s last trace →
      Conforms s.increment.toNat s.limit.toNat tat trace := by
  induction trace with
  | nil => intros; trivial
  | cons e rest ih =>
    obtain ⟨t, n⟩ := e
    intro s tat last hr ha hs hh
    obtain ⟨h1, h2, h3, h4, h5⟩ := hs
    obtain ⟨⟨r, hr1, hr2⟩, hh2⟩ := hh
    obtain ⟨r1, r2, r3, r4, _, _⟩ := admitn_rel s tat last t n hr ha h1 h2 h3 h4
    have hrt : r ≤ t := Nat.le_trans (Nat.le_add_right _ _) hr2
    have hq := (request_rel s tat last r hr hr1 (by omega)).1
    rw [hq] at hr2
    refine ⟨by omega, ?_⟩
    have := ih _ _ _ r1 r2 (by rw [r4]; exact h5) hh2
    rw [r3, r4] at this
    exact this

/-- **C28 (honouring the delays).** A caller that waits at least the delay it is told
before each admission is never alarmed. -/
theorem throttle_honour_no_alarm (s : Throttle) (increment limit : Ticks) (t0 : Nat)
    (trace : List (Nat × Nat)) (hs : Sane increment.toNat t0 t0 trace)
    (hh : Honours (init s increment limit (BitVec.ofNat 64 t0)) t0 trace) :
    ∀ a ∈ (admits (init s increment limit (BitVec.ofNat 64 t0)) trace).1, a = false := by
  rw [throttle_alarm_exact s increment limit t0 trace hs]
  apply specAlarms_of_conforms
  obtain ⟨h1, h2, h3, h4, _⟩ := init_rel s increment limit t0
  have := conforms_of_honours trace _ t0 t0 h1 h2 (by rw [h4]; exact hs) hh
  rwa [h3, h4] at this

/-- The events committed during the window from `u` to `u + w`. -/
def eventsIn (u w : Nat) (trace : List (Nat × Nat)) : Nat :=
  ((trace.filter fun e => decide (u ≤ e.1 ∧ e.1 ≤ u + w)).map (·.2)).sum

theorem eventsIn_cons (u w t n : Nat) (rest : List (Nat × Nat)) :
    eventsIn u w ((t, n) :: rest) =
      (if u ≤ t ∧ t ≤ u + w then n else 0) + eventsIn u w rest := by
  unfold eventsIn
  by_cases h : u ≤ t ∧ t ≤ u + w <;> simp [h]

theorem window_bound_aux (increment limit u w m : Nat) (hI : 0 < increment)
    (trace : List (Nat × Nat)) :
    ∀ (tat c : Nat), c ≤ m + (w + limit) / increment →
      (c = 0 ∨ u + c * increment ≤ tat) → (∀ e ∈ trace, e.2 ≤ m) →
      Conforms increment limit tat trace →
      c + eventsIn u w trace ≤ m + (w + limit) / increment := by
  induction trace with
  | nil => intro tat c h _ _ _; simpa [eventsIn] using h
  | cons e rest ih =>
    obtain ⟨t, n⟩ := e
    intro tat c hc hi hm hcf
    obtain ⟨h1, h2⟩ := hcf
    have hn : n ≤ m := hm (t, n) (by simp)
    have hm' : ∀ e ∈ rest, e.2 ≤ m := fun e he => hm e (by simp [he])
    rw [eventsIn_cons]
    by_cases hw : u ≤ t ∧ t ≤ u + w
    · rw [if_pos hw]
      have hcw : c ≤ (w + limit) / increment := by
        rcases hi with rfl | hi
        · exact Nat.zero_le _
        · rw [Nat.le_div_iff_mul_le hI]; omega
      have := ih (max tat t + n * increment) (c + n) (by omega) (by
        right
        rw [Nat.add_mul]
        rcases hi with rfl | hi
        · simp; omega
        · omega) hm' h2
      omega
    · rw [if_neg hw]
      have := ih (max tat t + n * increment) c hc (by
        rcases hi with rfl | hi
        · exact Or.inl rfl
        · right; omega) hm' h2
      omega

/-- **C28 (rate).** As long as no alarm is given, any window of `w` ticks, wherever it
starts, holds at most `m + (w + limit) / increment` events, where no single admission is of
more than `m` events; with one event at a time that is `1 + (w + limit) / increment`. -/
theorem throttle_window_bound (s : Throttle) (increment limit : Ticks) (t0 : Nat)
    (trace : List (Nat × Nat)) (hs : Sane increment.toNat t0 t0 trace)
    (hI : 0 < increment.toNat)
    (hq : ∀ a ∈ (admits (init s increment limit (BitVec.ofNat 64 t0)) trace).1, a = false)
    (m : Nat) (hm : ∀ e ∈ trace, e.2 ≤ m) (u w : Nat) :
    eventsIn u w trace ≤ m + (w + limit.toNat) / increment.toNat := by
  rw [throttle_alarm_exact s increment limit t0 trace hs] at hq
  have hc := conforms_of_specAlarms _ _ _ _ _ hq
  have := window_bound_aux increment.toNat limit.toNat u w m hI trace t0 0 (Nat.zero_le _)
    (Or.inl rfl) hm hc
  omega

/-- A throttle whose fields hold rubbish, as an uninitialised one might. -/
def rubbish : Throttle :=
  { now := 7, then_ := 99, increment := 3, limit := 4, expected := 5, actual := 6,
    full0 := true, full1 := true, full2 := true, empty0 := false, empty1 := true,
    empty2 := false, alarmed1 := true, alarmed2 := true }

/-- A stream over a wrap of the clock: at an increment of 10 and limit of 15, starting just
before 2^64, three immediate events and then a wait of the required 15 ticks. -/
example :
    Sane 10 (2 ^ 64 - 3) (2 ^ 64 - 3)
      [(2 ^ 64 - 3, 1), (2 ^ 64 - 3, 1), (2 ^ 64 + 2, 1), (2 ^ 64 + 12, 2)] ∧
    Honours (init rubbish 10 15 (BitVec.ofNat 64 (2 ^ 64 - 3))) (2 ^ 64 - 3)
      [(2 ^ 64 - 3, 1), (2 ^ 64 - 3, 1), (2 ^ 64 + 2, 1), (2 ^ 64 + 12, 2)] ∧
    (request (admits (init rubbish 10 15 (BitVec.ofNat 64 (2 ^ 64 - 3)))
      [(2 ^ 64 - 3, 1), (2 ^ 64 - 3, 1), (2 ^ 64 + 2, 1), (2 ^ 64 + 12, 2)]).2
      (BitVec.ofNat 64 (2 ^ 64 + 13))).1 = 19 := by
  refine ⟨by simp [Sane], ?_, by decide⟩
  refine ⟨⟨2 ^ 64 - 3, Nat.le_refl _, by decide⟩, ⟨2 ^ 64 - 3, Nat.le_refl _, by decide⟩,
    ⟨2 ^ 64 - 3, Nat.le_refl _, by decide⟩, ⟨2 ^ 64 + 4, by decide, by decide⟩, trivial⟩

/-- The rate bound is reached: with an increment of 10 and a limit of 15, two events at once
are the two that `1 + (0 + 15) / 10` allows, and a third raises the alarm. -/
example : eventsIn 0 0 [(0, 1), (0, 1)] = 1 + (0 + 15) / 10 ∧
    (admits (init rubbish 10 15 0) [(0, 1), (0, 1), (0, 1)]).1 = [false, false, true] := by
  decide

/-! ### What callers must not do -/

/-- **Finding.** Two commits without a request between them lose the events of the first:
the second replaces the expected time instead of adding to it, so one event is charged for
instead of two. -/
theorem throttle_double_commit_counterexample :
    (request (commitn (commitn (request (init rubbish 10 0 0) 0).2 1).2 1).2 0).1 = 10 ∧
    specTat 10 0 [(0, 1), (0, 1)] - 0 - 0 = 20 := by decide

/-- **Finding.** A caller that asks, waits for exactly the delay it was told, and commits
without asking again is alarmed although its traffic conforms: the commit is dated at the
request, not when it is made. -/
theorem throttle_wait_without_request_counterexample :
    let s := (admitn (init rubbish 10 0 0) 0 1).2
    (request s 0).1 = 10 ∧ (commitn (request s 0).2 1).1 = true ∧
    (admitn s 10 1).1 = false := by decide

/-- **Finding.** The alarm outlasts the nonconformance: the documentation says that it lasts
until the traffic once again conforms, but it lasts until the bucket has emptied.  Here the
last two admissions conform, with a required delay of zero, and are still alarmed. -/
theorem throttle_alarm_outlasts_counterexample :
    (admits (init rubbish 10 15 0) [(0, 1), (0, 1), (0, 1), (20, 1), (30, 1)]).1 =
      [false, false, true, true, true] ∧
    (request (admits (init rubbish 10 15 0) [(0, 1), (0, 1), (0, 1)]).2 20).1 = 0 ∧
    (request (admits (init rubbish 10 15 0) [(0, 1), (0, 1), (0, 1), (20, 1)]).2 30).1 = 0 := by
  decide

/-! ## Policing: the two textbook algorithms -/

/-- The virtual scheduling algorithm of ATM Forum TM 4.1: which of the arrivals conform. -/
def virtualScheduling (increment limit : Nat) : Nat → List Nat → List Bool
  | _, [] => []
  | tat, t :: rest =>
    if t + limit < tat then false :: virtualScheduling increment limit tat rest
    else true :: virtualScheduling increment limit (max tat t + increment) rest

/-- The continuous-state leaky bucket algorithm of ATM Forum TM 4.1: a bucket holding `x` at
the last conformance time `lct` leaks one unit a tick. -/
def leakyBucket (increment limit : Nat) : Nat → Nat → List Nat → List Bool
  | _, _, [] => []
  | x, lct, t :: rest =>
    let x' := x - (t - lct)
    if limit < x' then false :: leakyBucket increment limit x lct rest
    else true :: leakyBucket increment limit (x' + increment) t rest

/-- A policer: it requests for each arrival, and commits it only if the delay is zero. -/
def police : Throttle → List Nat → List Bool
  | _, [] => []
  | s, t :: rest =>
    let (d, s) := request s (BitVec.ofNat 64 t)
    if d = 0 then true :: police (commitn s 1).2 rest
    else false :: police s rest

/-- Times that do not go backwards from `last`. -/
def Ascending : Nat → List Nat → Prop
  | _, [] => True
  | last, t :: rest => last ≤ t ∧ Ascending t rest

theorem request_config (s : Throttle) (t : Ticks) :
    (request s t).2.limit = s.limit ∧ (request s t).2.increment = s.increment ∧
    (request s t).2.expected = s.expected ∧ (request s t).2.then_ = s.then_ ∧
    (request s t).2.full1 = s.full1 ∧ (request s t).2.empty1 = s.empty1 ∧
    (request s t).2.alarmed1 = s.alarmed1 := by
  unfold request
  dsimp only
  split
  · simp
  · split <;> simp

theorem police_eq (arrivals : List Nat) :
    ∀ (s : Throttle) (tat last now : Nat), Rel s tat last → AlarmInv s → last ≤ now →
      s.limit.toNat + s.increment.toNat < 2 ^ 64 → Ascending now arrivals →
      (∀ t ∈ arrivals, t < last + 2 ^ 64) →
      police s arrivals = virtualScheduling s.increment.toNat s.limit.toNat tat arrivals := by
  induction arrivals with
  | nil => intros; rfl
  | cons t rest ih =>
    intro s tat last now hr ha hln hlim hasc hb
    obtain ⟨h1, h2⟩ := hasc
    have hbt := hb t (by simp)
    have hlt : last ≤ t := by omega
    obtain ⟨hq1, hq2⟩ := request_rel s tat last t hr hlt (by omega)
    obtain ⟨c1, c2, c3, c4, c5, c6, c7⟩ := request_config s (BitVec.ofNat 64 t)
    simp only [police, virtualScheduling]
    by_cases hc : t + s.limit.toNat < tat
    · have hne : ¬ (request s (BitVec.ofNat 64 t)).1 = 0 := by
        intro h
        rw [h] at hq1
        simp at hq1
        omega
      rw [if_neg hne, if_pos hc]
      have := ih (request s (BitVec.ofNat 64 t)).2 tat last t
        (by unfold Rel; rw [c3, c4]; exact hr)
        (by unfold AlarmInv; rw [c5, c6, c7]; exact ha) hlt (by rw [c1, c2]; exact hlim) h2
        (fun x hx => hb x (by simp [hx]))
      rw [this, c1, c2]
    · have he : (request s (BitVec.ofNat 64 t)).1 = 0 := by
        apply BitVec.eq_of_toNat_eq
        rw [hq1]
        simp
        omega
      rw [if_pos he, if_neg hc]
      obtain ⟨r1, r2, r3, r4, _, _⟩ := admitn_rel s tat last t 1 hr ha hlt (by omega) (by decide)
        (by omega)
      unfold admitn at r1 r2 r3 r4
      have := ih (commitn (request s (BitVec.ofNat 64 t)).2 1).2 _ t t r1 r2 (Nat.le_refl _)
        (by rw [show (1 : Ticks) = BitVec.ofNat 64 1 from rfl, r3, r4]; exact hlim) h2
        (fun x hx => by have := hb x (by simp [hx]); omega)
      rw [this, show (1 : Ticks) = BitVec.ofNat 64 1 from rfl, r3, r4]
      simp

theorem vs_eq_lb (increment limit : Nat) (arrivals : List Nat) :
    ∀ (tat x lct now : Nat), lct ≤ now → Ascending now arrivals →
      (∀ t, lct ≤ t → tat - t = x - (t - lct)) →
      virtualScheduling increment limit tat arrivals = leakyBucket increment limit x lct arrivals := by
  induction arrivals with
  | nil => intros; rfl
  | cons t rest ih =>
    intro tat x lct now hl ha hx
    obtain ⟨h1, h2⟩ := ha
    have hxt := hx t (by omega)
    simp only [virtualScheduling, leakyBucket]
    by_cases hc : t + limit < tat
    · rw [if_pos hc, if_pos (by omega), ih tat x lct t (by omega) h2 hx]
    · rw [if_neg hc, if_neg (by omega)]
      rw [ih (max tat t + increment) (x - (t - lct) + increment) t t (Nat.le_refl _) h2]
      intro t' ht'
      omega

/-- **C29.** Used as a policer, the throttle accepts exactly the arrivals that the virtual
scheduling algorithm and the continuous-state leaky bucket algorithm accept, for any
increment, limit, starting time and arrivals in order, as long as the increment and the limit
together are below 2^64 and the arrivals are within 2^64 ticks of the start. -/
theorem throttle_policer_exact (s : Throttle) (increment limit : Ticks) (t0 : Nat)
    (hlim : limit.toNat + increment.toNat < 2 ^ 64) (arrivals : List Nat)
    (ha : Ascending t0 arrivals) (hb : ∀ t ∈ arrivals, t < t0 + 2 ^ 64) :
    police (init s increment limit (BitVec.ofNat 64 t0)) arrivals =
      virtualScheduling increment.toNat limit.toNat t0 arrivals ∧
    police (init s increment limit (BitVec.ofNat 64 t0)) arrivals =
      leakyBucket increment.toNat limit.toNat 0 t0 arrivals := by
  obtain ⟨h1, h2, h3, h4, _⟩ := init_rel s increment limit t0
  have := police_eq arrivals _ t0 t0 t0 h1 h2 (Nat.le_refl _) (by rw [h3, h4]; exact hlim) ha hb
  rw [h3, h4] at this
  refine ⟨this, ?_⟩
  rw [this]
  exact vs_eq_lb _ _ arrivals t0 0 t0 t0 (Nat.le_refl _) ha (by intro t ht; omega)

/-- A burst of which the middle events are refused, over a wrap of the clock. -/
example : police (init rubbish 10 5 (BitVec.ofNat 64 (2 ^ 64 - 1)))
    [2 ^ 64 - 1, 2 ^ 64 + 3, 2 ^ 64 + 4, 2 ^ 64 + 13, 2 ^ 64 + 14] =
      [true, false, true, false, true] ∧
    virtualScheduling 10 5 (2 ^ 64 - 1)
      [2 ^ 64 - 1, 2 ^ 64 + 3, 2 ^ 64 + 4, 2 ^ 64 + 13, 2 ^ 64 + 14] =
      [true, false, true, false, true] ∧
    Ascending (2 ^ 64 - 1) [2 ^ 64 - 1, 2 ^ 64 + 3, 2 ^ 64 + 4, 2 ^ 64 + 13, 2 ^ 64 + 14] := by
  refine ⟨by decide, by decide, by simp [Ascending]⟩

/-! ## The shaper -/

/-- Admit each of a list of `(time, events)` through a shaper. -/
def shaperAdmits : Shaper → List (Nat × Nat) → List Bool × Shaper
  | s, [] => ([], s)
  | s, (t, n) :: rest =>
    let (a, s) := shaperAdmitn s (BitVec.ofNat 64 t) (BitVec.ofNat 64 n)
    let (as, s) := shaperAdmits s rest
    (a :: as, s)

theorem shaperAdmits_eq (trace : List (Nat × Nat)) : ∀ s : Shaper,
    (shaperAdmits s trace).2 =
      { peak := (admits s.peak trace).2, sustained := (admits s.sustained trace).2 } ∧
    (shaperAdmits s trace).1 =
      List.zipWith (· || ·) (admits s.peak trace).1 (admits s.sustained trace).1 := by
  induction trace with
  | nil => intro s; exact ⟨rfl, rfl⟩
  | cons e rest ih =>
    intro s
    obtain ⟨t, n⟩ := e
    obtain ⟨h1, h2⟩ := ih (shaperAdmitn s (BitVec.ofNat 64 t) (BitVec.ofNat 64 n)).2
    simp only [shaperAdmits, admits]
    rw [h1, h2]
    exact ⟨rfl, rfl⟩

theorem toNat_longer (a b : Ticks) : (if a > b then a else b).toNat = max a.toNat b.toNat := by
  split
  · rename_i h; rw [gt_iff_lt, BitVec.lt_def] at h; omega
  · rename_i h; rw [gt_iff_lt, BitVec.lt_def] at h; omega

/-- **C30 (delay).** The delay a shaper returns is exactly the longer of what its peak
contract and its sustained contract require. -/
theorem shaper_delay_exact (s : Shaper) (pi jt si bt : Ticks) (t0 : Nat)
    (trace : List (Nat × Nat)) (hp : Sane pi.toNat t0 t0 trace) (hs : Sane si.toNat t0 t0 trace)
    (t : Nat) (hl : lastTime t0 trace ≤ t) (hg : t - lastTime t0 trace < 2 ^ 64) :
    (shaperRequest (shaperAdmits (shaperInit s pi jt si bt (BitVec.ofNat 64 t0)) trace).2
      (BitVec.ofNat 64 t)).1.toNat =
      max (specTat pi.toNat t0 trace - t - jt.toNat) (specTat si.toNat t0 trace - t - bt.toNat) := by
  rw [(shaperAdmits_eq trace _).1]
  have h1 := throttle_delay_exact s.peak pi jt t0 trace hp t hl hg
  have h2 := throttle_delay_exact s.sustained si bt t0 trace hs t hl hg
  rw [← h1, ← h2]
  exact toNat_longer _ _

/-- **C30 (alarm).** A shaper is alarmed exactly when either of its contracts is. -/
theorem shaper_alarm_exact (s : Shaper) (pi jt si bt : Ticks) (t0 : Nat)
    (trace : List (Nat × Nat)) (hp : Sane pi.toNat t0 t0 trace) (hs : Sane si.toNat t0 t0 trace) :
    (shaperAdmits (shaperInit s pi jt si bt (BitVec.ofNat 64 t0)) trace).1 =
      List.zipWith (· || ·) (specAlarms pi.toNat jt.toNat t0 false trace)
        (specAlarms si.toNat bt.toNat t0 false trace) := by
  rw [(shaperAdmits_eq trace _).2]
  rw [← throttle_alarm_exact s.peak pi jt t0 trace hp,
    ← throttle_alarm_exact s.sustained si bt t0 trace hs]
  rfl

/-- The caller honours the shaper: it waited at least the delay it was told. -/
def ShaperHonours (s : Shaper) (last : Nat) : List (Nat × Nat) → Prop
  | [] => True
  | (t, n) :: rest =>
    (∃ r, last ≤ r ∧ r + (shaperRequest s (BitVec.ofNat 64 r)).1.toNat ≤ t) ∧
      ShaperHonours (shaperAdmitn s (BitVec.ofNat 64 t) (BitVec.ofNat 64 n)).2 t rest

theorem shaperHonours_split (trace : List (Nat × Nat)) : ∀ (s : Shaper) (last : Nat),
    ShaperHonours s last trace → Honours s.peak last trace ∧ Honours s.sustained last trace := by
  induction trace with
  | nil => intro _ _ _; exact ⟨trivial, trivial⟩
  | cons e rest ih =>
    obtain ⟨t, n⟩ := e
    intro s last h
    obtain ⟨⟨r, h1, h2⟩, h3⟩ := h
    obtain ⟨i1, i2⟩ := ih _ _ h3
    have hm : (request s.peak (BitVec.ofNat 64 r)).1.toNat ≤
        (shaperRequest s (BitVec.ofNat 64 r)).1.toNat ∧
        (request s.sustained (BitVec.ofNat 64 r)).1.toNat ≤
        (shaperRequest s (BitVec.ofNat 64 r)).1.toNat := by
      simp only [shaperRequest]
      split
      · rename_i h; rw [gt_iff_lt, BitVec.lt_def] at h; omega
      · rename_i h; rw [gt_iff_lt, BitVec.lt_def] at h; omega
    exact ⟨⟨⟨r, h1, by omega⟩, i1⟩, ⟨⟨r, h1, by omega⟩, i2⟩⟩

/-- **C30 (both contracts).** A caller that waits at least the delay it is told is never
alarmed, and in any window its events are within both the peak and the sustained rate. -/
theorem shaper_honour_conforms (s : Shaper) (pi jt si bt : Ticks) (t0 : Nat)
    (trace : List (Nat × Nat)) (hp : Sane pi.toNat t0 t0 trace) (hs : Sane si.toNat t0 t0 trace)
    (hp0 : 0 < pi.toNat) (hs0 : 0 < si.toNat)
    (hh : ShaperHonours (shaperInit s pi jt si bt (BitVec.ofNat 64 t0)) t0 trace)
    (m : Nat) (hm : ∀ e ∈ trace, e.2 ≤ m) :
    (∀ a ∈ (shaperAdmits (shaperInit s pi jt si bt (BitVec.ofNat 64 t0)) trace).1, a = false) ∧
    ∀ u w, eventsIn u w trace ≤ m + (w + jt.toNat) / pi.toNat ∧
      eventsIn u w trace ≤ m + (w + bt.toNat) / si.toNat := by
  obtain ⟨h1, h2⟩ := shaperHonours_split trace _ _ hh
  have q1 := throttle_honour_no_alarm s.peak pi jt t0 trace hp h1
  have q2 := throttle_honour_no_alarm s.sustained si bt t0 trace hs h2
  refine ⟨?_, fun u w => ⟨throttle_window_bound s.peak pi jt t0 trace hp hp0 q1 m hm u w,
    throttle_window_bound s.sustained si bt t0 trace hs hs0 q2 m hm u w⟩⟩
  rw [(shaperAdmits_eq trace _).2]
  intro a ha
  simp only [shaperInit] at ha
  obtain ⟨i, hi, rfl⟩ := List.getElem_of_mem ha
  rw [List.getElem_zipWith]
  rw [List.length_zipWith] at hi
  rw [q1 _ (List.getElem_mem (by omega)), q2 _ (List.getElem_mem (by omega))]
  rfl

/-- A shaper at peak increment 2 and sustained increment 10 with a burst of three: three
events at the peak rate, then the sustained rate takes over. -/
example :
    (shaperAdmits (shaperInit ⟨rubbish, rubbish⟩ 2 0 10 16 0) [(0, 1), (2, 1), (4, 1)]).1 =
      [false, false, false] ∧
    (shaperRequest (shaperAdmits (shaperInit ⟨rubbish, rubbish⟩ 2 0 10 16 0)
      [(0, 1), (2, 1), (4, 1)]).2 4).1 = 10 ∧
    ShaperHonours (shaperInit ⟨rubbish, rubbish⟩ 2 0 10 16 0) 0 [(0, 1), (2, 1), (4, 1), (14, 1)] ∧
    Sane 2 0 0 [(0, 1), (2, 1), (4, 1), (14, 1)] ∧
    Sane 10 0 0 [(0, 1), (2, 1), (4, 1), (14, 1)] := by
  refine ⟨by decide, by decide, ?_, by simp [Sane], by simp [Sane]⟩
  exact ⟨⟨0, by decide, by decide⟩, ⟨0, by decide, by decide⟩, ⟨2, by decide, by decide⟩,
    ⟨4, by decide, by decide⟩, trivial⟩

/-! ## Choosing the parameters (C58) -/

/-- **C58 (increment).** The interarrival time is the least number of ticks whose rate does
not exceed `numerator` events in `denominator` seconds, unless the product of the frequency and
the denominator overflows. -/
theorem interarrival_least (n d f : Ticks) (hn : 0 < n.toNat) (hd : 0 < d.toNat)
    (ho : f.toNat * d.toNat < 2 ^ 64) :
    f.toNat * d.toNat ≤ (interarrivalTime n d f).toNat * n.toNat ∧
    ∀ k : Nat, f.toNat * d.toNat ≤ k * n.toNat → (interarrivalTime n d f).toNat ≤ k := by
  have hinc : (if d > 1 then f * d else f).toNat = f.toNat * d.toNat := by
    split
    · rw [BitVec.toNat_mul, Nat.mod_eq_of_lt ho]
    · rename_i h
      rw [gt_iff_lt, BitVec.lt_def] at h
      have : d.toNat = 1 := by simp at h; omega
      rw [this, Nat.mul_one]
  unfold interarrivalTime
  simp only
  generalize (if d > 1 then f * d else f) = inc at hinc
  rw [← hinc]
  have hil := inc.isLt
  split
  · rename_i h
    rw [BitVec.le_def] at h
    have : n.toNat = 1 := by simp at h; omega
    rw [this]
    simp
  · rename_i h
    rw [BitVec.le_def] at h
    have hn1 : 1 < n.toNat := by simp at h; omega
    have hdm := Nat.div_add_mod inc.toNat n.toNat
    have hml := Nat.mod_lt inc.toNat hn
    have hq : inc.toNat / n.toNat < 2 ^ 64 - 1 := by
      have := Nat.div_le_self inc.toNat n.toNat
      rcases Nat.lt_or_ge (inc.toNat / n.toNat) (2 ^ 64 - 1) with h | h
      · exact h
      · have := Nat.div_lt_self (show 0 < inc.toNat by omega) hn1
        omega
    split
    · rename_i hm
      rw [gt_iff_lt, BitVec.lt_def, BitVec.toNat_umod] at hm
      have hm0 : 0 < inc.toNat % n.toNat := by simpa using hm
      have he : (inc / n + 1).toNat = inc.toNat / n.toNat + 1 := by
        rw [BitVec.toNat_add, BitVec.toNat_udiv]
        simp
        omega
      rw [he]
      refine ⟨?_, ?_⟩
      · rw [Nat.add_mul, Nat.mul_comm]; omega
      · intro k hk
        rcases Nat.lt_or_ge (inc.toNat / n.toNat) k with h | h
        · omega
        · have := Nat.mul_le_mul_right n.toNat h
          rw [Nat.mul_comm (inc.toNat / n.toNat)] at this
          omega
    · rename_i hm
      rw [gt_iff_lt, BitVec.lt_def, BitVec.toNat_umod] at hm
      have hm0 : inc.toNat % n.toNat = 0 := by
        simp at hm
        omega
      rw [BitVec.toNat_udiv]
      refine ⟨?_, ?_⟩
      · rw [Nat.mul_comm]; omega
      · intro k hk
        exact Nat.div_le_of_le_mul (by rw [Nat.mul_comm]; exact hk)

/-- 30 events in 7 seconds at a gigahertz do not divide evenly. -/
example : interarrivalTime 30 7 1000000000 = 233333334 := by decide

/-- **C58 (burst).** With the jitter tolerance computed for a maximum burst size of `b`, an
idle throttle lets exactly `b` back-to-back events through without delay: for `k` events
already admitted at the same instant the delay is zero exactly if `k < b`. -/
theorem jitter_burst_exact (s : Throttle) (increment b : Ticks) (t0 k : Nat)
    (hI : 0 < increment.toNat) (hb : 0 < b.toNat)
    (ho : b.toNat * increment.toNat < 2 ^ 64) (hko : k * increment.toNat < 2 ^ 64) :
    (request (admits (init s increment (jitterTolerance increment b) (BitVec.ofNat 64 t0))
      (List.replicate k (t0, 1))).2 (BitVec.ofNat 64 t0)).1 = 0 ↔ k < b.toNat := by
  have htat : ∀ (k a : Nat), t0 ≤ a → specTat increment.toNat a (List.replicate k (t0, 1)) =
      a + k * increment.toNat := by
    intro k
    induction k with
    | zero => intro a _; simp [specTat]
    | succ k ih =>
      intro a ha
      have := ih (max a t0 + 1 * increment.toNat) (by omega)
      simp only [specTat, List.replicate_succ, List.foldl_cons] at this ⊢
      rw [this, Nat.add_mul]
      omega
  have hlast : ∀ k : Nat, lastTime t0 (List.replicate k (t0, 1)) = t0 := by
    intro k
    induction k with
    | zero => rfl
    | succ k ih => simpa [lastTime, List.replicate_succ] using ih
  have hsane : ∀ (k a : Nat), t0 ≤ a → a + k * increment.toNat - t0 < 2 ^ 64 →
      Sane increment.toNat a t0 (List.replicate k (t0, 1)) := by
    intro k
    induction k with
    | zero => intro a _ _; trivial
    | succ k ih =>
      intro a ha hlt
      rw [Nat.add_mul] at hlt
      refine ⟨Nat.le_refl _, by omega, by decide, by omega, ?_⟩
      exact ih _ (by omega) (by omega)
  have hd := throttle_delay_exact s increment (jitterTolerance increment b) t0
    (List.replicate k (t0, 1)) (hsane k t0 (Nat.le_refl _) (by omega)) t0 (by rw [hlast]; omega)
    (by rw [hlast]; omega)
  rw [htat k t0 (Nat.le_refl _)] at hd
  have hj : (jitterTolerance increment b).toNat = (b.toNat - 1) * increment.toNat := by
    unfold jitterTolerance
    split
    · have h1 : (b - 1).toNat = b.toNat - 1 := by
        rw [BitVec.toNat_sub]
        simp
        omega
      rw [BitVec.toNat_mul, h1, Nat.mod_eq_of_lt]
      exact Nat.lt_of_le_of_lt (Nat.mul_le_mul_right _ (Nat.sub_le _ _)) ho
    · rename_i h
      rw [gt_iff_lt, BitVec.lt_def] at h
      have : b.toNat = 1 := by simp at h; omega
      simp [this]
  rw [hj] at hd
  constructor
  · intro h
    rw [h] at hd
    have h0 : k * increment.toNat ≤ (b.toNat - 1) * increment.toNat := by
      simp at hd
      omega
    have := Nat.le_of_mul_le_mul_right h0 hI
    omega
  · intro h
    apply BitVec.eq_of_toNat_eq
    rw [hd]
    have := Nat.mul_le_mul_right increment.toNat (show k ≤ b.toNat - 1 by omega)
    simp
    omega

/-- A burst of 3 at an increment of 10: the fourth event is delayed. -/
example : (request (admits (init rubbish 10 (jitterTolerance 10 3) 0)
      (List.replicate 2 (0, 1))).2 0).1 = 0 ∧
    (request (admits (init rubbish 10 (jitterTolerance 10 3) 0)
      (List.replicate 3 (0, 1))).2 0).1 = 10 := by decide

/-- **C58 (burst at the peak rate).** With the burst tolerance computed for a maximum burst
size of `b`, a sustained increment above the peak increment and no jitter, an idle sustained
contract lets exactly `b` events at the peak rate through without delay. -/
theorem burst_tolerance_exact (s : Throttle) (pi si b : Ticks) (t0 k : Nat)
    (hp : pi.toNat < si.toNat) (hb : 0 < b.toNat)
    (ho : b.toNat * si.toNat < 2 ^ 64) (hko : k * si.toNat < 2 ^ 64) :
    (request (admits (init s si (burstTolerance pi 0 si b) (BitVec.ofNat 64 t0))
      ((List.range k).map fun i => (t0 + i * pi.toNat, 1))).2
        (BitVec.ofNat 64 (t0 + k * pi.toNat))).1 = 0 ↔ k < b.toNat := by
  have hsi : 0 < si.toNat := by omega
  have key : ∀ k : Nat, k * si.toNat < 2 ^ 64 →
      specTat si.toNat t0 ((List.range k).map fun i => (t0 + i * pi.toNat, 1)) = t0 + k * si.toNat ∧
      lastTime t0 ((List.range k).map fun i => (t0 + i * pi.toNat, 1)) =
        t0 + (k - 1) * pi.toNat ∧
      Sane si.toNat t0 t0 ((List.range k).map fun i => (t0 + i * pi.toNat, 1)) := by
    have sane_append : ∀ (l : List (Nat × Nat)) (tat last t n : Nat),
        Sane si.toNat tat last l → lastTime last l ≤ t → t - lastTime last l < 2 ^ 64 →
        n < 2 ^ 64 → max (specTat si.toNat tat l) t + n * si.toNat - t < 2 ^ 64 →
        Sane si.toNat tat last (l ++ [(t, n)]) := by
      intro l
      induction l with
      | nil => intro tat last t n _ h1 h2 h3 h4; exact ⟨h1, h2, h3, h4, trivial⟩
      | cons e rest ih =>
        obtain ⟨t', n'⟩ := e
        intro tat last t n hs h1 h2 h3 h4
        obtain ⟨a1, a2, a3, a4, a5⟩ := hs
        exact ⟨a1, a2, a3, a4, ih _ _ _ _ a5 h1 h2 h3 h4⟩
    intro k
    induction k with
    | zero => intro _; exact ⟨by simp [specTat], by simp [lastTime], trivial⟩
    | succ k ih =>
      intro hlt
      rw [Nat.add_mul] at hlt
      obtain ⟨i1, i2, i3⟩ := ih (by omega)
      have hkp : k * pi.toNat ≤ k * si.toNat := Nat.mul_le_mul_left _ (by omega)
      have hk1 : (k - 1) * pi.toNat ≤ k * pi.toNat := Nat.mul_le_mul_right _ (by omega)
      rw [List.range_succ, List.map_append]
      refine ⟨?_, ?_, ?_⟩
      · simp only [specTat, List.foldl_append, List.map_cons, List.map_nil, List.foldl_cons,
          List.foldl_nil] at i1 ⊢
        rw [i1, Nat.add_mul]
        omega
      · simp [lastTime, List.foldl_append]
      · apply sane_append
        · exact i3
        · rw [i2]; omega
        · rw [i2]; omega
        · decide
        · rw [i1]
          have := pi.isLt
          omega
  obtain ⟨k1, k2, k3⟩ := key k hko
  have hkp : k * pi.toNat ≤ k * si.toNat := Nat.mul_le_mul_left _ (by omega)
  have hk1 : (k - 1) * pi.toNat ≤ k * pi.toNat := Nat.mul_le_mul_right _ (by omega)
  have hd := throttle_delay_exact s si (burstTolerance pi 0 si b) t0 _ k3 (t0 + k * pi.toNat)
    (by rw [k2]; omega) (by rw [k2]; omega)
  rw [k1] at hd
  have hj : (burstTolerance pi 0 si b).toNat = (b.toNat - 1) * (si.toNat - pi.toNat) := by
    have hne : ¬ si ≤ pi := by rw [BitVec.le_def]; omega
    unfold burstTolerance
    rw [if_neg hne]
    split
    · rename_i h
      rw [BitVec.le_def] at h
      have : b.toNat = 1 := by simp at h; omega
      simp [this]
    · have h1 : (b - 1).toNat = b.toNat - 1 := by
        rw [BitVec.toNat_sub]
        simp
        omega
      have h2 : (si - pi).toNat = si.toNat - pi.toNat := by
        rw [BitVec.toNat_sub]
        have := si.isLt
        omega
      change ((b - 1) * (si - pi) + 0#64).toNat = _
      rw [BitVec.add_zero, BitVec.toNat_mul, h1, h2, Nat.mod_eq_of_lt]
      exact Nat.lt_of_le_of_lt (Nat.mul_le_mul (Nat.sub_le _ _) (Nat.sub_le _ _)) ho
  rw [hj] at hd
  have hsub : t0 + k * si.toNat - (t0 + k * pi.toNat) = k * (si.toNat - pi.toNat) := by
    rw [Nat.mul_sub]; omega
  rw [hsub] at hd
  constructor
  · intro h
    rw [h] at hd
    have h0 : k * (si.toNat - pi.toNat) ≤ (b.toNat - 1) * (si.toNat - pi.toNat) := by
      simp at hd
      omega
    have := Nat.le_of_mul_le_mul_right h0 (by omega)
    omega
  · intro h
    apply BitVec.eq_of_toNat_eq
    rw [hd]
    have := Nat.mul_le_mul_right (si.toNat - pi.toNat) (show k ≤ b.toNat - 1 by omega)
    simp
    omega

/-- A burst of 3 with a peak increment of 2 and a sustained increment of 10. -/
example : burstTolerance 2 0 10 3 = 16 ∧
    (request (admits (init rubbish 10 (burstTolerance 2 0 10 3) 0)
      [(0, 1), (2, 1)]).2 4).1 = 0 ∧
    (request (admits (init rubbish 10 (burstTolerance 2 0 10 3) 0)
      [(0, 1), (2, 1), (4, 1)]).2 6).1 = 8 := by decide

/-- **Finding.** The overflow precondition of C58 is needed: a frequency of a gigahertz and a
denominator of 2^55 seconds gives an increment of zero, no throttling at all. -/
theorem interarrival_overflow_counterexample :
    interarrivalTime 1 (BitVec.ofNat 64 (2 ^ 55)) 1000000000 = 0 := by decide

end Diminuto.Throttle
