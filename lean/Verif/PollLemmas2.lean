import Verif.PollLemmas

/-!
# Lemmas: the poller, its wait
-/

namespace Diminuto.Poll

open Diminuto.Mux (Mux Kind FdSet Fds Regs Valid Bounds SetInv bounds_pos)

theorem ppoll_eq (c : Nat → Cond) : ∀ (n len : Nat) (arr : List (Option Entry)) (f : Nat → Entry), Arr arr len f → n ≤ len →
    ∃ arr', ppoll c n arr = some (arr', ((List.range n).filter fun i => (report c (f i)).any).length) ∧
      Arr arr' len (fun i => if i < n then { f i with revents := report c (f i) } else f i) := by
  intro n
  induction n with
  | zero => intro len arr f h _; exact ⟨arr, rfl, arr_congr h fun i _ => by simp⟩
  | succ n ih =>
    intro len arr f h hn
    cases arr with
    | nil => have := h.1; simp at this; omega
    | cons x arr =>
      have hx := h.2 0 (by omega)
      simp only [List.getElem?_cons_zero, Option.some.injEq] at hx
      subst hx
      have ht : Arr arr (len - 1) (fun i => f (i + 1)) := by
        refine ⟨by have := h.1; simp at this; omega, fun i hi => ?_⟩
        have := h.2 (i + 1) (by omega)
        simpa using this
      obtain ⟨arr', e1, e2⟩ := ih (len - 1) arr _ ht (by omega)
      refine ⟨some { f 0 with revents := report c (f 0) } :: arr', ?_, ?_⟩
      · unfold ppoll
        rw [e1, Option.bind_some]
        congr 2
        rw [List.range_succ_eq_map, List.filter_cons, List.filter_map]
        have e : ((fun i => (report c (f i)).any) ∘ Nat.succ) = fun i => (report c (f (i + 1))).any := rfl
        rw [e]
        by_cases hr : (report c (f 0)).any = true
        · simp [hr]
        · simp [hr]
      · refine ⟨by simp [e2.1]; omega, fun i hi => ?_⟩
        cases i with
        | zero => simp
        | succ i =>
          have := e2.2 i (by omega)
          simp only [List.getElem?_cons_succ, this]
          by_cases hin : i < n
          · simp [hin]
          · simp [hin]

theorem afterLoop_eq (lo : Nat) (arr : List (Option Entry)) (a : Ev) (len : Nat) (f : Nat → Entry) (h : Arr arr len f) :
    ∀ (n : Nat) (fd : Nat) (r : Fds), fd + n ≤ 1024 → lo ≤ fd → fd + n ≤ lo + len →
    afterLoop lo arr a n fd r = some (fun i => if fd ≤ i ∧ i < fd + n then
      (if (f (i - lo)).fd < 0 then r i else meets (f (i - lo)).revents a) else r i) := by
  intro n
  induction n with
  | zero =>
    intro fd r _ _ _
    unfold afterLoop
    congr 1
    funext i
    rw [if_neg (by omega)]
  | succ n ih =>
    intro fd r h1 h2 h3
    unfold afterLoop
    rw [entry_arr h (by omega) (by omega), Option.bind_some]
    have et : ((fd : Int) - (lo : Int)).toNat = fd - lo := by omega
    rw [et]
    have hv : Valid (fd : Int) := ⟨by omega, by omega⟩
    have key : (if (f (fd - lo)).fd < 0 then some r else if meets (f (fd - lo)).revents a = false then Mux.assign (fd : Int) r false
        else Mux.assign (fd : Int) r true) =
        some (fun i => if i = fd then (if (f (fd - lo)).fd < 0 then r i else meets (f (fd - lo)).revents a) else r i) := by
      by_cases c1 : (f (fd - lo)).fd < 0
      · simp [c1]
      · rw [if_neg c1, Mux.assign_valid hv, Mux.assign_valid hv]
        simp only [Int.toNat_natCast]
        by_cases c2 : meets (f (fd - lo)).revents a = false
        · rw [if_pos c2]
          simp only [c1, c2, if_false]
        · rw [if_neg c2]
          simp only [Bool.not_eq_false] at c2
          simp only [c1, c2, if_false]
    rw [key, Option.bind_some]
    have := ih (fd + 1) (fun i => if i = fd then (if (f (fd - lo)).fd < 0 then r i else meets (f (fd - lo)).revents a) else r i)
      (by omega) (by omega) (by omega)
    rw [show ((fd + 1 : Nat) : Int) = (fd : Int) + 1 by omega] at this
    rw [this]
    congr 1
    funext i
    by_cases hi : i = fd
    · subst hi
      rw [if_neg (show ¬ (i + 1 ≤ i ∧ i < i + 1 + n) by omega), if_pos rfl, if_pos (show i ≤ i ∧ i < i + (n + 1) by omega)]
    · by_cases hj : fd + 1 ≤ i ∧ i < fd + 1 + n
      · rw [if_pos hj, if_neg hi, if_pos (show fd ≤ i ∧ i < fd + (n + 1) by omega)]
      · rw [if_neg hj, if_neg hi, if_neg (show ¬ (fd ≤ i ∧ i < fd + (n + 1)) by omega)]

/-- The bits of a set after the wait. -/
def bits (lo : Nat) (f : Nat → Entry) (k : Kind) (s : FdSet) : Fds := fun i =>
  if s.min ≤ i ∧ (i : Int) ≤ s.max then (if (f (i - lo)).fd < 0 then s.ready i else meets (f (i - lo)).revents (mask k)) else s.ready i

theorem after_eq {lo len : Nat} {arr : List (Option Entry)} {f : Nat → Entry} (h : Arr arr len f) {m : Mux} (k : Kind) (hi : SetInv (m.set k))
    (hr : ∀ i, (m.set k).active i = true → lo ≤ i ∧ i < lo + len) :
    after lo arr k m = some (Mux.put m k (Mux.reset { m.set k with ready := bits lo f k (m.set k) })) := by
  unfold after
  simp only []
  rcases bounds_pos hi.bounds hi.small with ⟨h0, h1, h2⟩ | ⟨h0, h1, h2, h3⟩
  · rw [if_neg (by omega), Option.bind_some]
    have : bits lo f k (m.set k) = (m.set k).ready := by
      funext i
      unfold bits
      rw [if_neg (by omega)]
    rw [this]
  · rw [if_pos (by omega)]
    obtain ⟨⟨i, x1, x2⟩, j, y1, y2⟩ := hi.bounds.2.1 h0
    have hx := hr i x1
    have hy := hr j y1
    have := afterLoop_eq lo arr (mask k) len f h ((m.set k).max + 1 - (m.set k).min).toNat (m.set k).min.toNat (m.set k).ready
      (by omega) (by omega) (by omega)
    rw [show (((m.set k).min.toNat : Nat) : Int) = (m.set k).min by omega] at this
    rw [this, Option.bind_some]
    congr 4
    funext i
    unfold bits
    by_cases hb : (m.set k).min ≤ i ∧ (i : Int) ≤ (m.set k).max
    · rw [if_pos hb, if_pos (by omega)]
    · rw [if_neg hb, if_neg (by omega)]

theorem allAfter_eq {lo len : Nat} {arr : List (Option Entry)} {f : Nat → Entry} (h : Arr arr len f) {m : Mux} {g : Regs} (hi : MInv m g)
    (hr : ∀ i, any g i = true → lo ≤ i ∧ i < lo + len) :
    ∃ m', allAfter lo arr m = some m' ∧ ∀ k, m'.set k = Mux.reset { m.set k with ready := bits lo f k (m.set k) } := by
  have hr' : ∀ k i, (m.set k).active i = true → lo ≤ i ∧ i < lo + len := fun k i hk => hr i (any_of (k := k) (by rw [← hi.active]; exact hk))
  unfold allAfter
  rw [after_eq h .read (hi.sets _) (hr' _), Option.bind_some]
  rw [after_eq h .write (by simpa [Mux.put] using hi.sets _) (by simpa [Mux.put] using hr' _), Option.bind_some]
  rw [after_eq h .accept (by simpa [Mux.put] using hi.sets _) (by simpa [Mux.put] using hr' _), Option.bind_some]
  rw [after_eq h .urgent (by simpa [Mux.put] using hi.sets _) (by simpa [Mux.put] using hr' _), Option.bind_some]
  rw [after_eq h .interrupt (by simpa [Mux.put] using hi.sets _) (by simpa [Mux.put] using hr' _)]
  refine ⟨_, rfl, fun k => ?_⟩
  cases k <;> simp [Mux.put]

theorem allBounds_congr {m m' : Mux} (h : ∀ k, (m'.set k).min = (m.set k).min ∧ (m'.set k).max = (m.set k).max) : allBounds m' = allBounds m := by
  simp only [allBounds, bounds, (h _).1, (h _).2]

/-- What the array must be to be passed to the kernel. -/
def Made (p : Poll) (g : Regs) : Prop :=
  (∀ i, any g i = false) ∨ ∃ lo : Nat, (allBounds p.mux).1 = lo ∧ count (allBounds p.mux) ≤ p.arr.length ∧ Fits p.arr lo g

theorem arr_const (n : Nat) (arr : List (Option Entry)) (h : arr.length = n) : Arr (arr.map fun _ => some blank) n (fun _ => blank) := by
  refine ⟨by simp [h], fun i hi => ?_⟩
  rw [List.getElem?_map, List.getElem?_eq_getElem (by omega)]
  rfl

/-- The array is made when it must be. -/
theorem prepare_eq {p : Poll} {g : Regs} (hi : MInv p.mux g) (hm : p.refresh = false → Made p g) :
    ∃ arr r, prepare p true = some (arr, r) ∧ (r = true → p.refresh = true) ∧
      ((∀ i, any g i = false) ∨ (r = false ∧ ∃ lo : Nat, (allBounds p.mux).1 = lo ∧ count (allBounds p.mux) ≤ arr.length ∧ Fits arr lo g)) := by
  rcases allBounds_cases hi with ⟨h0, hc⟩ | ⟨lo, n, e1, e2, h1, h2, h3⟩
  · unfold prepare
    simp only [hc]
    refine ⟨p.arr, p.refresh, ?_, id, .inl h0⟩
    simp
  · have key : ∃ arr, (if n > p.arr.length then some (p.arr ++ List.replicate (n - p.arr.length) none) else some p.arr) = some arr ∧ n ≤ arr.length ∧
        (n ≤ p.arr.length → arr = p.arr) := by
      by_cases hl : n > p.arr.length
      · rw [if_pos hl]
        exact ⟨_, rfl, by simp; omega, fun h => by omega⟩
      · rw [if_neg hl]
        exact ⟨_, rfl, by omega, fun _ => rfl⟩
    obtain ⟨arr, k1, k2, k3⟩ := key
    unfold prepare
    simp only [e2, if_true, k1, Option.bind_some]
    rw [if_neg (by omega)]
    cases hrf : p.refresh
    · rw [if_pos rfl]
      refine ⟨arr, false, rfl, by simp, .inr ⟨rfl, ?_⟩⟩
      rcases hm hrf with hm | ⟨lo', m1, m2, m3⟩
      · exfalso
        have hb := allBounds_spec hi
        have := hb.2.2 hm
        unfold count at e2
        rw [if_neg (by omega)] at e2
        omega
      · rw [k3 (by omega)]
        exact ⟨lo', m1, by omega, m3⟩
    · rw [if_neg (by decide), e1]
      obtain ⟨arr', f1, f2, f3⟩ := allBefore_eq hi (lo := lo) (arr_const arr.length arr rfl) (fun i hi' => by have := h3 i hi'; omega)
      rw [f1, Option.bind_some]
      exact ⟨arr', false, rfl, by simp, .inr ⟨rfl, lo, rfl, by omega, f3⟩⟩

theorem filter_range_shift (q : Nat → Bool) (lo n : Nat) (h : lo + n ≤ 1024) (hq : ∀ i, q i = true → lo ≤ i ∧ i < lo + n) :
    ((List.range n).filter fun i => q (lo + i)).length = ((List.range 1024).filter q).length := by
  have e : List.range 1024 = List.range' 0 lo ++ (List.range' lo n ++ List.range' (lo + n) (1024 - (lo + n))) := by
    rw [List.range_eq_range', show 1024 = lo + (n + (1024 - (lo + n))) by omega, ← List.range'_append_1, ← List.range'_append_1]
    congr 2
    · simp
    · congr 1 <;> omega
  have z : ∀ l : List Nat, (∀ i ∈ l, ¬ (lo ≤ i ∧ i < lo + n)) → l.filter q = [] := by
    intro l hl
    rw [List.filter_eq_nil_iff]
    intro i hi hqi
    exact hl i hi (hq i hqi)
  rw [e, List.filter_append, List.filter_append, z (List.range' 0 lo) (fun i hi => by have := List.mem_range'_1.1 hi; omega),
    z (List.range' (lo + n) _) (fun i hi => by have := List.mem_range'_1.1 hi; omega), List.nil_append, List.append_nil]
  rw [List.range'_eq_map_range, List.filter_map, List.length_map]
  rfl

/-- What is reported is what is due. -/
theorem report_due {g : Regs} {c : Nat → Cond} {e : Entry} {i : Nat} (h : (e.fd, e.events) = wanted g i) : (report c e).any = due g c i := by
  simp only [wanted, Prod.mk.injEq] at h
  unfold report
  rw [h.1, h.2]
  cases ha : any g i
  · simp [Cond.any, due, ha]
  · simp only [if_true]
    rw [if_neg (by omega)]
    simp only [Int.toNat_natCast, Cond.any, due, ha, Bool.true_and]
    cases (c i).inp <;> cases (c i).out <;> cases (c i).pri <;> cases (c i).err <;> simp <;>
      cases g .read i <;> cases g .write i <;> cases g .accept i <;> cases g .urgent i <;> cases g .interrupt i <;> rfl

/-- Whether the condition of a set is asked of a descriptor. -/
def asked (g : Regs) : Kind → Nat → Bool
  | .read, i => g .read i || g .accept i
  | .accept, i => g .read i || g .accept i
  | .write, i => g .write i
  | .urgent, i => g .urgent i || g .interrupt i
  | .interrupt, i => g .urgent i || g .interrupt i

theorem report_meets {g : Regs} {c : Nat → Cond} {e : Entry} {i : Nat} (h : (e.fd, e.events) = wanted g i) (k : Kind) :
    (e.fd < 0 ↔ any g i = false) ∧ (any g i = true → meets (report c e) (mask k) = (asked g k i && holds k (c i))) := by
  simp only [wanted, Prod.mk.injEq] at h
  constructor
  · rw [h.1]
    cases ha : any g i
    · simp
    · simp
  · intro ha
    unfold report
    rw [h.1, h.2, ha]
    simp only [if_true]
    rw [if_neg (by omega)]
    cases k <;> simp [meets, mask, asked, holds]

/-- The bits of a set after a wait which reports something. -/
def bitsOf (g : Regs) (c : Nat → Cond) (k : Kind) (s : FdSet) : Fds := fun i =>
  if s.min ≤ i ∧ (i : Int) ≤ s.max then (if any g i then asked g k i && holds k (c i) else s.ready i) else s.ready i

theorem fits_reported {arr arr' : List (Option Entry)} {lo : Nat} {g : Regs} {f f' : Nat → Entry} (h : Arr arr' arr.length f')
    (hw : ∀ i, i < arr.length → ((f i).fd, (f i).events) = wanted g (lo + i)) (hf : ∀ i, (f' i).fd = (f i).fd ∧ (f' i).events = (f i).events) :
    Fits arr' lo g := by
  refine ⟨f', by rw [h.1]; exact h, ?_⟩
  intro i hi
  rw [(hf i).1, (hf i).2]
  exact hw i (by rw [← h.1]; exact hi)

/-- A wait that does not fail: the number of descriptors that are due, and which bits are set. -/
theorem wait_polled {p : Poll} {g : Regs} (hi : MInv p.mux g) (hm : p.refresh = false → Made p g) (forever : Bool) (c : Nat → Cond) :
    ∃ p', wait p forever true (.polled c) = some (p', (dues g c : Int)) ∧ (p'.refresh = true → p.refresh = true) ∧ Made p' g ∧
      (∀ k, p'.mux.set k = if dues g c > 0 then Mux.reset { p.mux.set k with ready := bitsOf g c k (p.mux.set k) } else p.mux.set k) := by
  obtain ⟨arr, r, e1, e2, e3⟩ := prepare_eq hi hm
  rcases allBounds_cases hi with ⟨h0, hc⟩ | ⟨lo, n, b1, b2, h1, h2, h3⟩
  · have hd : dues g c = 0 := by
      unfold dues
      rw [List.length_eq_zero_iff, List.filter_eq_nil_iff]
      intro i _
      simp [due, h0]
    rw [hd]
    unfold wait
    rw [e1]
    simp only [hc, Option.bind_some, ppoll]
    by_cases hf : forever = false
    · rw [if_pos (.inr hf), if_neg (by omega)]
      exact ⟨_, rfl, e2, .inl h0, fun k => by simp⟩
    · rw [if_neg (by simp [hf])]
      exact ⟨_, rfl, e2, .inl h0, fun k => by simp⟩
  · rcases e3 with e3 | ⟨e3, lo', e4, e5, f, e6, e7⟩
    · exfalso
      have hb := allBounds_spec hi
      have := hb.2.2 e3
      unfold count at b2
      rw [if_neg (by omega)] at b2
      omega
    · have : lo' = lo := by omega
      subst this
      have hn : n ≤ arr.length := by omega
      obtain ⟨arr', p1, p2⟩ := ppoll_eq c n arr.length arr f e6 hn
      have hlen : ((List.range n).filter fun i => (report c (f i)).any).length = dues g c := by
        unfold dues
        rw [← filter_range_shift (due g c) lo' n h2 (fun i hd => h3 i (by unfold due at hd; simp at hd; exact hd.1))]
        congr 1
        apply List.filter_congr
        intro i hir
        exact report_due (e7 i (by have := List.mem_range.1 hir; omega))
      have hfits : Fits arr' lo' g := fits_reported p2 e7 fun i => by
        by_cases hin : i < n <;> simp [hin]
      unfold wait
      rw [e1]
      simp only [b2, Option.bind_some, b1]
      rw [if_pos (.inl h1), p1, Option.bind_some]
      simp only [hlen]
      by_cases hd : dues g c > 0
      · rw [if_pos hd]
        obtain ⟨m', a1, a2⟩ := allAfter_eq p2 hi (fun i hi' => show lo' ≤ i ∧ i < lo' + arr.length by have := h3 i hi'; omega)
        rw [a1, Option.bind_some]
        have hset : ∀ k, m'.set k = Mux.reset { p.mux.set k with ready := bitsOf g c k (p.mux.set k) } := by
          intro k
          rw [a2 k]
          refine congrArg (fun x => Mux.reset { p.mux.set k with ready := x }) ?_
          funext i
          unfold bits bitsOf
          by_cases hin : (p.mux.set k).min ≤ i ∧ (i : Int) ≤ (p.mux.set k).max
          · rw [if_pos hin, if_pos hin]
            rcases bounds_pos (hi.sets k).bounds (hi.sets k).small with ⟨-, x1, x2⟩ | ⟨x0, x1, x2, x3⟩
            · omega
            · obtain ⟨⟨a, y1, y2⟩, b, z1, z2⟩ := (hi.sets k).bounds.2.1 x0
              have ha := h3 a (any_of (k := k) (by rw [← hi.active]; exact y1))
              have hb := h3 b (any_of (k := k) (by rw [← hi.active]; exact z1))
              have hil : i - lo' < n := by omega
              simp only [hil, if_true]
              have hr := report_meets (c := c) (e7 (i - lo') (by omega)) k
              rw [show lo' + (i - lo') = i by omega] at hr
              cases hany : any g i
              · rw [if_pos (hr.1.2 hany), if_neg (by decide)]
              · rw [if_neg (fun h => by have := hr.1.1 h; rw [hany] at this; exact absurd this (by decide)), if_pos rfl, hr.2 hany]
          · rw [if_neg hin, if_neg hin]
        refine ⟨_, rfl, e2, .inr ⟨lo', ?_, ?_, hfits⟩, fun k => by rw [if_pos hd]; exact hset k⟩
        · rw [allBounds_congr (m := p.mux) (fun k => by rw [hset k]; exact ⟨(Mux.reset_fields _).2.2.1, (Mux.reset_fields _).2.2.2⟩)]
          exact b1
        · rw [allBounds_congr (m := p.mux) (fun k => by rw [hset k]; exact ⟨(Mux.reset_fields _).2.2.1, (Mux.reset_fields _).2.2.2⟩), b2, p2.1]
          exact hn
      · rw [if_neg hd]
        refine ⟨⟨arr', p.mux, lo', (allBounds p.mux).2, r⟩, by rw [show dues g c = 0 by omega]; rfl, e2, .inr ⟨lo', b1, by rw [b2, p2.1]; exact hn, hfits⟩, fun k => by rw [if_neg hd]⟩

/-- A wait that fails. -/
theorem wait_error {p : Poll} {g : Regs} (hi : MInv p.mux g) (hm : p.refresh = false → Made p g) (forever : Bool) :
    ∃ p' r, wait p forever true .error = some (p', r) ∧ (p'.refresh = true → p.refresh = true) ∧ Made p' g ∧ p'.mux = p.mux := by
  obtain ⟨arr, r, e1, e2, e3⟩ := prepare_eq hi hm
  unfold wait
  rw [e1]
  simp only [Option.bind_some]
  have hmade : Made ⟨arr, p.mux, (allBounds p.mux).1, (allBounds p.mux).2, r⟩ g := by
    rcases e3 with e3 | ⟨-, e3⟩
    · exact .inl e3
    · exact .inr e3
  by_cases h : count (allBounds p.mux) > 0 ∨ forever = false
  · rw [if_pos h]
    exact ⟨_, _, rfl, e2, hmade, rfl⟩
  · rw [if_neg h]
    exact ⟨_, _, rfl, e2, hmade, rfl⟩

end Diminuto.Poll
