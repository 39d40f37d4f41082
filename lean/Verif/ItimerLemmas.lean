import Verif.ItimerSpec
import Verif.DelayProps

/-! Lemmas about the singleton timer. -/

namespace Diminuto.Itimer
open Time (ticks2wholeseconds ticks2fractionalseconds seconds2ticks Fits)
open Delay (Timespec)

theorem acceptable_iff (t : Timespec) : acceptable t = true ↔ t.Valid := by
  simp only [acceptable, Timespec.Valid, Bool.and_eq_true, decide_eq_true_eq, and_assoc]

/-- The ticks until the timer expires. -/
def toGo (s : State) : Nat := match s.timer with
  | none => 0
  | some a => a.due - s.now

theorem remaining_ticks (s : State) (h : toGo s < 2 ^ 63) : seconds2ticks (remaining s).sec (remaining s).nsec 1000000000 = some (toGo s : Int) := by
  have key : (remaining s).Valid ∧ (remaining s).ns = (toGo s : Int) := by
    simp only [remaining, toGo, Timespec.Valid, Timespec.ns]
    cases s.timer with
    | none => simp
    | some a => simp only []; omega
  have := Delay.seconds2ticks_exact (remaining s) key.1 (by rw [key.2]; simp only [Fits]; omega)
  rw [key.2] at this
  exact this

theorem finish_ok (strict : Bool) (s : State) (v : Timespec) (hv : v.Valid) (hi : s.interval.Valid) (h : toGo s < 2 ^ 63) :
    finish strict s v = (.returned (toGo s), { s with timer := if v.ns = 0 then none else some ⟨s.now + v.ns.toNat, s.interval.ns.toNat⟩ }) := by
  have h1 := (acceptable_iff v).mpr hv
  have h2 := (acceptable_iff _).mpr hi
  have h3 : (v = ⟨0, 0⟩) = (v.ns = 0) := by
    apply propext
    obtain ⟨a, b⟩ := v
    simp only [Timespec.Valid, Timespec.ns, Timespec.mk.injEq] at *
    omega
  simp only [finish, settime, h1, h2, h3, Bool.true_eq_false, if_false, false_and, remaining_ticks s h]
  simp only [Timespec.ns]

/-- What a call does once the timer is there. -/
theorem set_ok (strict : Bool) (s : State) (t : BitVec 64) (ht : t.toNat < 2 ^ 63) (hi : s.interval.Valid) (h : toGo s < 2 ^ 63) :
    ∃ i : Timespec, i.Valid ∧ (if t = 0#64 then stop strict s else start strict s t) =
      (.returned (toGo s), { s with interval := i, timer := if t.toNat = 0 then none else some ⟨s.now + t.toNat, if s.periodic then t.toNat else 0⟩ }) := by
  by_cases h0 : t = 0#64
  · subst h0
    refine ⟨s.interval, hi, ?_⟩
    rw [if_pos rfl, stop, finish_ok strict s ⟨0, 0⟩ (by simp [Timespec.Valid]) hi h]
    simp [Timespec.ns]
  · rw [if_neg h0]
    have hi' : t.toInt = t.toNat := by rw [BitVec.toInt_eq_toNat_cond, if_pos (by omega)]
    have hn : t.toNat ≠ 0 := fun e => h0 (BitVec.eq_of_toNat_eq (by simpa using e))
    obtain ⟨d, h1, h2, h3, h4, -⟩ := Delay.split_whole t.toInt (Delay.toInt_fits t)
    have hd : d.Valid := h4.mpr (by omega)
    refine ⟨if s.periodic then d else ⟨0, 0⟩, by split; exact hd; simp [Timespec.Valid], ?_⟩
    simp only [Delay.FREQUENCY] at h2
    simp only [start, h1, h2]
    have e : (⟨d.sec, d.nsec⟩ : Timespec) = d := rfl
    rw [e, finish_ok strict { s with interval := if s.periodic then d else ⟨0, 0⟩ } d hd (by show Timespec.Valid (if s.periodic then d else ⟨0, 0⟩); split; exact hd; simp [Timespec.Valid]) h]
    simp only [h3, hi', toGo, hn, Int.natCast_eq_zero, if_false, Int.toNat_natCast]
    cases s.periodic
    · simp [Timespec.ns]
    · simp [h3, hi']

theorem made_cons_pass (h : List Event) : Made (.pass :: h) ↔ Made h := by
  constructor
  · rintro ⟨t, p, hm⟩
    rcases List.mem_cons.mp hm with e | e
    · cases e
    · exact ⟨t, p, e⟩
  · rintro ⟨t, p, hm⟩
    exact ⟨t, p, List.mem_cons_of_mem _ hm⟩

theorem made_cons_call (t : BitVec 64) (p r : Bool) (h : List Event) : Made (.call t p r :: h) ↔ r = true ∨ Made h := by
  constructor
  · rintro ⟨t', p', hm⟩
    rcases List.mem_cons.mp hm with e | e
    · injection e with _ _ e
      exact Or.inl e.symm
    · exact Or.inr ⟨t', p', e⟩
  · rintro (rfl | ⟨t', p', hm⟩)
    · exact ⟨t, p, List.mem_cons_self⟩
    · exact ⟨t', p', List.mem_cons_of_mem _ hm⟩

theorem latest_made {h : List Event} {q : Request} (hq : Latest h q) : Made h := by
  induction hq with
  | now t p r h hr => exact (made_cons_call ..).mpr hr
  | later h q _ ih => exact (made_cons_pass h).mpr ih

theorem latest_unique {h : List Event} {q q' : Request} (a : Latest h q) (b : Latest h q') : q = q' := by
  induction a generalizing q' with
  | now t p r h hr => cases b; rfl
  | later h q _ ih => cases b with
    | later _ q'' hq'' => rw [ih hq'']

/-- A state agrees with a history in which all calls ask for the periodicity `p`. -/
structure Sees (p : Bool) (h : List Event) (s : State) : Prop where
  init : s.initialized = true ↔ Made h
  per : Made h → s.periodic = p
  intv : s.interval.Valid
  none : ¬ Made h → s.timer = none
  some : Made h → ∃ q, Latest h q ∧ q.periodic = p ∧ q.ticks < 2 ^ 63 ∧
    match s.timer with
    | .none => q.ticks = 0 ∨ (p = false ∧ q.ticks ≤ q.age)
    | .some a => 0 < q.left ∧ 0 < q.ticks ∧ a.due = s.now + q.left ∧ a.interval = if p then q.ticks else 0

theorem sees_left {p : Bool} {h : List Event} {s : State} (hs : Sees p h s) {q : Request} (hq : Latest h q) : toGo s = q.left ∧ q.left < 2 ^ 63 := by
  obtain ⟨q', hq', hp, ht, hm⟩ := hs.some (latest_made hq)
  rw [latest_unique hq hq']
  have hl : q'.left < 2 ^ 63 := by simp only [Request.left]; split <;> omega
  refine ⟨?_, hl⟩
  simp only [toGo]
  cases e : s.timer with
  | none =>
    rw [e] at hm
    simp only [Request.left, hp]
    rcases hm with hm | ⟨rfl, hm⟩
    · rw [hm]; split <;> omega
    · simp only [Bool.false_eq_true, if_false]; omega
  | some a =>
    rw [e] at hm
    simp only [] at hm ⊢
    omega

theorem sees_short {p : Bool} {h : List Event} {s : State} (hs : Sees p h s) : toGo s < 2 ^ 63 := by
  by_cases hm : Made h
  · obtain ⟨q, hq, -⟩ := hs.some hm
    have := sees_left hs hq
    omega
  · simp [toGo, hs.none hm]

/-- Whether an age that grows by one becomes a multiple. -/
theorem mod_succ (t a : Nat) (ht : 0 < t) : (t ∣ a + 1 ↔ a % t + 1 = t) ∧ (a % t + 1 = t → (a + 1) % t = 0) ∧ (a % t + 1 < t → (a + 1) % t = a % t + 1) := by
  have hl := Nat.mod_lt a ht
  have hd : (a + 1) % t = (a % t + 1) % t := by rw [Nat.mod_add_mod]
  by_cases h : a % t + 1 = t
  · have : (a + 1) % t = 0 := by rw [hd, h, Nat.mod_self]
    exact ⟨⟨fun _ => h, fun _ => Nat.dvd_of_mod_eq_zero this⟩, fun _ => this, fun hh => by omega⟩
  · have : (a + 1) % t = a % t + 1 := by rw [hd, Nat.mod_eq_of_lt (by omega)]
    exact ⟨⟨fun hh => by have := Nat.mod_eq_zero_of_dvd hh; omega, fun hh => absurd hh h⟩, fun hh => absurd hh h, fun _ => this⟩

theorem step_sees (strict p : Bool) (h : List Event) (s : State) (hs : Sees p h s) (e : Event) (he : ∀ t q r, e = .call t q r → q = p ∧ t.toNat < 2 ^ 63) :
    Sees p (e :: h) (step strict s e).2 ∧ Documented (e :: h) (step strict s e).1 := by
  cases e with
  | pass =>
    by_cases hm : Made h
    · obtain ⟨q, hq, hp, ht, hm'⟩ := hs.some hm
      have hq' := Latest.later h q hq
      have hM := (made_cons_pass h).mpr hm
      simp only [step, pass]
      cases e : s.timer with
      | none =>
        rw [e] at hm'
        refine ⟨⟨by simp only [made_cons_pass]; exact hs.init, fun _ => hs.per hm, hs.intv, fun hn => absurd hM hn, fun _ => ⟨_, hq', hp, ht, ?_⟩⟩, .sounds h _ false hq' ?_⟩
        · rcases hm' with hm' | ⟨hf, hm'⟩
          · exact Or.inl hm'
          · exact Or.inr ⟨hf, Nat.le_succ_of_le hm'⟩
        · simp only [Bool.false_eq_true, Request.Sounds, false_iff, hp]
          rcases hm' with hm' | ⟨rfl, hm'⟩
          · omega
          · simp only [Bool.false_eq_true, false_and, or_false]; omega
      | some a =>
        rw [e] at hm'
        simp only [] at hm' ⊢
        obtain ⟨hl, htp, hdue, hint⟩ := hm'
        have hmod := mod_succ q.ticks q.age htp
        have hlt := Nat.mod_lt q.age htp
        by_cases hd : a.due ≤ s.now + 1
        · rw [if_pos hd]
          have hl1 : q.left = 1 := by omega
          refine ⟨⟨by simp only [made_cons_pass]; exact hs.init, fun _ => hs.per hm, hs.intv, fun hn => absurd hM hn, fun _ => ⟨_, hq', hp, ht, ?_⟩⟩, .sounds h _ true hq' ?_⟩
          · simp only [hint]
            cases p with
            | false =>
              simp only [Request.left, hp, Bool.false_eq_true, if_false] at hl1
              simp only [Bool.false_eq_true, if_false, if_true, true_and]
              omega
            | true =>
              simp only [Request.left, hp, if_true] at hl1
              have := hmod.2.1 (by omega)
              simp only [if_true, if_neg (show ¬ q.ticks = 0 by omega), Request.left, hp, this, Nat.sub_zero]
              refine ⟨htp, htp, by omega, trivial⟩
          · simp only [Request.Sounds, true_iff, hp]
            refine ⟨htp, by omega, ?_⟩
            cases p with
            | false => simp only [Request.left, hp, Bool.false_eq_true, if_false] at hl1; exact Or.inl (by omega)
            | true => simp only [Request.left, hp, if_true] at hl1; exact Or.inr ⟨rfl, hmod.1.mpr (by omega)⟩
        · rw [if_neg hd]
          refine ⟨⟨by simp only [made_cons_pass]; exact hs.init, fun _ => hs.per hm, hs.intv, fun hn => absurd hM hn, fun _ => ⟨_, hq', hp, ht, ?_⟩⟩, .sounds h _ false hq' ?_⟩
          · simp only [hint, and_true]
            cases p with
            | false =>
              simp only [Request.left, hp, Bool.false_eq_true, if_false] at hdue ⊢
              omega
            | true =>
              simp only [Request.left, hp, if_true] at hdue ⊢
              have := hmod.2.2 (by omega)
              omega
          · simp only [Bool.false_eq_true, Request.Sounds, false_iff, hp]
            cases p with
            | false =>
              simp only [Request.left, hp, Bool.false_eq_true, if_false] at hdue
              simp only [Bool.false_eq_true, false_and, or_false]
              omega
            | true =>
              simp only [Request.left, hp, if_true] at hdue
              rintro ⟨-, -, h1 | ⟨-, h1⟩⟩
              · have : q.ticks ∣ q.age + 1 := ⟨1, by omega⟩
                have := hmod.1.mp this
                omega
              · have := hmod.1.mp h1
                omega
    · have ht := hs.none hm
      have hM : ¬ Made (.pass :: h) := fun x => hm ((made_cons_pass h).mp x)
      simp only [step, pass, ht]
      exact ⟨⟨by simp only [made_cons_pass]; exact hs.init, fun x => absurd x hM, hs.intv, fun _ => rfl, fun x => absurd x hM⟩, .silence h fun q hq => hm (latest_made hq)⟩
  | call t q r =>
    obtain ⟨rfl, ht⟩ := he t q r rfl
    by_cases hm : Made h
    · have hM := (made_cons_call t q r h).mpr (Or.inr hm)
      obtain ⟨i, hi, e⟩ := set_ok strict s t ht hs.intv (sees_short hs)
      obtain ⟨q', hq', -⟩ := hs.some hm
      simp only [step, setitimer, hs.init.mpr hm, if_true, e, hs.per hm]
      refine ⟨⟨⟨fun _ => hM, fun _ => rfl⟩, fun _ => rfl, hi, fun hn => absurd hM hn, fun _ => ⟨_, .now t q r h (Or.inr hm), rfl, ht, ?_⟩⟩, ?_⟩
      · simp only []
        by_cases h0 : t.toNat = 0
        · rw [if_pos h0]; exact Or.inl h0
        · rw [if_neg h0]
          simp only [Request.left, Nat.zero_mod, Nat.sub_zero, ite_self]
          exact ⟨by omega, by omega, trivial, trivial⟩
      · rw [(sees_left hs hq').1]
        exact .left t q r h q' hq'
    · have hni : s.initialized = false := by
        cases e : s.initialized
        · rfl
        · exact absurd (hs.init.mp e) hm
      cases r with
      | false =>
        have hM : ¬ Made (.call t q false :: h) := fun x => by
          rcases (made_cons_call ..).mp x with x | x
          · exact nomatch x
          · exact hm x
        simp only [step, setitimer, hni, Bool.false_eq_true, if_false]
        exact ⟨⟨⟨fun x => absurd x (by simp [hni]), fun x => absurd x hM⟩, fun x => absurd x hM, hs.intv, fun _ => hs.none hm, fun x => absurd x hM⟩, .error t q h hm⟩
      | true =>
        have hM := (made_cons_call t q true h).mpr (Or.inl rfl)
        have hg : toGo { s with initialized := true, periodic := q, interval := ⟨0, 0⟩ } = 0 := by simp [toGo, hs.none hm]
        obtain ⟨i, hi, e⟩ := set_ok strict { s with initialized := true, periodic := q, interval := ⟨0, 0⟩ } t ht (by simp [Timespec.Valid]) (by rw [hg]; decide)
        rw [hg] at e
        simp only [step, setitimer, hni, Bool.false_eq_true, if_false, if_true, e]
        refine ⟨⟨⟨fun _ => hM, fun _ => rfl⟩, fun _ => rfl, hi, fun hn => absurd hM hn, fun _ => ⟨_, .now t q true h (Or.inl rfl), rfl, ht, ?_⟩⟩, .first t q h hm⟩
        simp only []
        by_cases h0 : t.toNat = 0
        · rw [if_pos h0]; exact Or.inl h0
        · rw [if_neg h0]
          simp only [Request.left, Nat.zero_mod, Nat.sub_zero, ite_self]
          exact ⟨by omega, by omega, trivial, trivial⟩

theorem run_sees (strict p : Bool) (h : List Event) (hp : Alike p h) (hs : Short h) : Sees p h (run strict h).2 ∧ AllDocumented h (run strict h).1 := by
  induction h with
  | nil =>
    have hn : ¬ Made [] := by rintro ⟨_, _, h⟩; cases h
    exact ⟨⟨⟨fun x => (nomatch x), fun x => absurd x hn⟩, fun x => absurd x hn, by simp [run, start0, Timespec.Valid], fun _ => rfl, fun x => absurd x hn⟩, .nil⟩
  | cons e h ih =>
    have ih := ih (fun t q r hm => hp t q r (List.mem_cons_of_mem _ hm)) (fun t q r hm => hs t q r (List.mem_cons_of_mem _ hm))
    have := step_sees strict p h _ ih.1 e (fun t q r he => ⟨hp t q r (he ▸ List.mem_cons_self), hs t q r (he ▸ List.mem_cons_self)⟩)
    exact ⟨this.1, .cons e h _ _ this.2 ih.2⟩

theorem run_initialized (strict : Bool) (h : List Event) (hn : ¬ Made h) : (run strict h).2.initialized = false := by
  induction h with
  | nil => rfl
  | cons e h ih =>
    cases e with
    | pass =>
      have := ih (fun x => hn ((made_cons_pass h).mpr x))
      simp only [run, step, pass]
      split <;> try split
      all_goals exact this
    | call t q r =>
      have hr : ¬ (r = true) := fun x => hn ((made_cons_call ..).mpr (Or.inl x))
      have := ih (fun x => hn ((made_cons_call ..).mpr (Or.inr x)))
      simp only [run, step, setitimer, this, Bool.false_eq_true, if_false, hr]

theorem finish_initialized (strict : Bool) (s : State) (v : Timespec) : (finish strict s v).2.initialized = s.initialized := by
  simp only [finish, settime]
  split
  · rfl
  · rename_i heq
    split at heq
    · cases heq
    · split at heq
      · cases heq
      · injection heq with heq
        injection heq with _ heq
        subst heq
        split <;> rfl

theorem set_initialized (strict : Bool) (s : State) (t : BitVec 64) : (if t = 0#64 then stop strict s else start strict s t).2.initialized = s.initialized := by
  split
  · exact finish_initialized ..
  · simp only [start]
    split
    · exact finish_initialized ..
    · rfl

theorem step_initialized (strict : Bool) (s : State) (e : Event) (h : s.initialized = true) : (step strict s e).2.initialized = true := by
  cases e with
  | pass =>
    simp only [step, pass]
    split <;> try split
    all_goals exact h
  | call t q r => simp only [step, setitimer, h, if_true, set_initialized]

theorem madeWith_initialized (strict p : Bool) (h : List Event) (hm : MadeWith p h) : (run strict h).2.initialized = true := by
  induction hm with
  | now t h hn =>
    simp only [run, step, setitimer, run_initialized strict h hn, Bool.false_eq_true, if_false, if_true, set_initialized]
  | later e h _ ih => exact step_initialized strict _ e ih

theorem asIf_unmade (strict p : Bool) (h : List Event) (hn : ¬ Made h) : run strict (asIf p h) = run strict h := by
  induction h with
  | nil => rfl
  | cons e h ih =>
    cases e with
    | pass => simp only [asIf, run, ih (fun x => hn ((made_cons_pass h).mpr x))]
    | call t q r =>
      have hr : ¬ (r = true) := fun x => hn ((made_cons_call ..).mpr (Or.inl x))
      have hn' : ¬ Made h := fun x => hn ((made_cons_call ..).mpr (Or.inr x))
      simp only [asIf, run, ih hn', step, setitimer, run_initialized strict h hn', Bool.false_eq_true, if_false, hr]

theorem asIf_made (strict p : Bool) (h : List Event) (hm : MadeWith p h) : run strict (asIf p h) = run strict h := by
  induction hm with
  | now t h hn => simp only [asIf, run, asIf_unmade strict p h hn]
  | later e h hm ih =>
    cases e with
    | pass => simp only [asIf, run, ih]
    | call t q r => simp only [asIf, run, ih, step, setitimer, madeWith_initialized strict p h hm, if_true]

theorem asIf_alike (p : Bool) (h : List Event) : Alike p (asIf p h) := by
  induction h with
  | nil => intro _ _ _ hm; cases hm
  | cons e h ih =>
    intro t q r hm
    cases e with
    | pass =>
      rcases List.mem_cons.mp hm with x | x
      · cases x
      · exact ih t q r x
    | call t' q' r' =>
      rcases List.mem_cons.mp hm with x | x
      · injection x
      · exact ih t q r x

theorem asIf_short (p : Bool) (h : List Event) (hs : Short h) : Short (asIf p h) := by
  induction h with
  | nil => intro _ _ _ hm; cases hm
  | cons e h ih =>
    have ih := ih (fun t q r hm => hs t q r (List.mem_cons_of_mem _ hm))
    intro t q r hm
    cases e with
    | pass =>
      rcases List.mem_cons.mp hm with x | x
      · cases x
      · exact ih t q r x
    | call t' q' r' =>
      rcases List.mem_cons.mp hm with x | x
      · injection x with x
        subst x
        exact hs t q' r' List.mem_cons_self
      · exact ih t q r x

end Diminuto.Itimer
