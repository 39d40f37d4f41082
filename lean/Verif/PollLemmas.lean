import Verif.PollSpec
import Verif.MuxLemmas

/-!
# Lemmas: the poller
-/

namespace Diminuto.Poll

open Diminuto.Mux (Mux Kind FdSet Fds Regs Valid Bounds SetInv bounds_pos)

theorem bounds_step {f : Nat → Bool} {b : Int × Int} (hf : Bounds f b.1 b.2) (hs : ∀ i, f i = true → i < 1024) {s : FdSet} (hi : SetInv s) :
    Bounds (fun i => f i || s.active i) (bounds b s).1 (bounds b s).2 ∧ ∀ i, (f i || s.active i) = true → i < 1024 := by
  have h1 := bounds_pos hf hs
  have h2 := bounds_pos hi.bounds hi.small
  obtain ⟨f1, f2, f3⟩ := hf
  obtain ⟨g1, g2, g3⟩ := hi.bounds
  refine ⟨⟨?_, ?_, ?_⟩, ?_⟩
  · intro i h
    simp only [Bool.or_eq_true] at h
    unfold bounds
    simp only []
    rcases h with h | h
    · have := f1 i h
      constructor <;> split <;> omega
    · have := g1 i h
      constructor <;> split <;> omega
  · intro _
    unfold bounds
    simp only []
    refine ⟨?_, ?_⟩
    · split
      · rcases h2 with ⟨-, h2, -⟩ | ⟨he, -⟩
        · rcases h1 with ⟨-, h1, -⟩ | h1 <;> omega
        · obtain ⟨⟨i, x1, x2⟩, -⟩ := g2 he
          exact ⟨i, by simp [x1], x2⟩
      · rcases h1 with ⟨e1, x1, x1'⟩ | ⟨he, -⟩
        · rcases h2 with ⟨e2, x2, x2'⟩ | h2
          · rename_i h _
            obtain ⟨i, h⟩ := h
            simp [e1 i, e2 i] at h
          · omega
        · obtain ⟨⟨i, x1, x2⟩, -⟩ := f2 he
          exact ⟨i, by simp [x1], x2⟩
    · split
      · rcases h2 with ⟨-, -, h2⟩ | ⟨he, -⟩
        · rcases h1 with ⟨-, -, h1⟩ | h1 <;> omega
        · obtain ⟨-, i, x1, x2⟩ := g2 he
          exact ⟨i, by simp [x1], x2⟩
      · rcases h1 with ⟨e1, x1, x1'⟩ | ⟨he, -⟩
        · rcases h2 with ⟨e2, x2, x2'⟩ | h2
          · rename_i h _
            obtain ⟨i, h⟩ := h
            simp [e1 i, e2 i] at h
          · omega
        · obtain ⟨-, i, x1, x2⟩ := f2 he
          exact ⟨i, by simp [x1], x2⟩
  · intro h
    have e1 := f3 fun i => by have := h i; simp at this; exact this.1
    have e2 := g3 fun i => by have := h i; simp at this; exact this.2
    unfold bounds
    simp only []
    constructor <;> split <;> omega
  · intro i h
    simp only [Bool.or_eq_true] at h
    rcases h with h | h
    · exact hs i h
    · exact hi.small i h

/-- What is known of the sets: like in the multiplexer, and the registrations. -/
structure MInv (m : Mux) (g : Regs) : Prop where
  sets : ∀ k, SetInv (m.set k)
  active : ∀ k, (m.set k).active = g k

theorem any_small {m : Mux} {g : Regs} (hi : MInv m g) {i : Nat} (h : any g i = true) : i < 1024 := by
  simp only [any, Bool.or_eq_true] at h
  have key : ∀ k, g k i = true → i < 1024 := fun k hk => (hi.sets k).small i (by rw [hi.active]; exact hk)
  rcases h with (((h | h) | h) | h) | h <;> exact key _ h

theorem any_of {g : Regs} {k : Kind} {i : Nat} (h : g k i = true) : any g i = true := by
  cases k <;> simp [any, h]

theorem any_iff {g : Regs} {i : Nat} : any g i = true ↔ ∃ k, g k i = true := by
  constructor
  · intro h
    simp only [any, Bool.or_eq_true] at h
    rcases h with (((h | h) | h) | h) | h <;> exact ⟨_, h⟩
  · rintro ⟨k, h⟩; exact any_of h

theorem allBounds_spec {m : Mux} {g : Regs} (hi : MInv m g) : Bounds (any g) (allBounds m).1 (allBounds m).2 := by
  have h0 := bounds_step (f := fun _ => false) (b := (Mux.MOSTPOSITIVE, Mux.MOSTNEGATIVE)) Mux.bounds_empty (by simp) (hi.sets .read)
  have h1 := bounds_step h0.1 h0.2 (hi.sets .write)
  have h2 := bounds_step h1.1 h1.2 (hi.sets .accept)
  have h3 := bounds_step h2.1 h2.2 (hi.sets .urgent)
  have h4 := bounds_step h3.1 h3.2 (hi.sets .interrupt)
  have e : (fun i => (((((false || (m.set .read).active i) || (m.set .write).active i) || (m.set .accept).active i) || (m.set .urgent).active i) ||
      (m.set .interrupt).active i)) = any g := by
    funext i
    simp [any, hi.active]
  rw [← e]
  exact h4.1

/-- Either no descriptor is registered, or the array begins with the least and ends with the greatest. -/
theorem allBounds_cases {m : Mux} {g : Regs} (hi : MInv m g) :
    ((∀ i, any g i = false) ∧ count (allBounds m) = 0) ∨
    ∃ lo n : Nat, (allBounds m).1 = lo ∧ count (allBounds m) = n ∧ 0 < n ∧ lo + n ≤ 1024 ∧ ∀ i, any g i = true → lo ≤ i ∧ i < lo + n := by
  have hb := allBounds_spec hi
  rcases bounds_pos hb (fun i h => any_small hi h) with ⟨h, h1, h2⟩ | ⟨h, h1, h2, h3⟩
  · left
    refine ⟨h, ?_⟩
    unfold count
    rw [if_neg (by omega)]
  · right
    refine ⟨(allBounds m).1.toNat, ((allBounds m).2 - (allBounds m).1 + 1).toNat, by omega, ?_, by omega, by omega, ?_⟩
    · unfold count
      rw [if_pos h2]
    · intro i hi'
      have := hb.1 i hi'
      omega

/-- The array after the descriptors of a set have been entered. -/
def mark (lo : Nat) (s : FdSet) (a : Ev) (f : Nat → Entry) (i : Nat) : Entry :=
  if s.active (lo + i) then { f i with fd := ((lo + i : Nat) : Int), events := (f i).events.or a } else f i

/-- An array all of whose elements are initialized. -/
def Arr (arr : List (Option Entry)) (n : Nat) (f : Nat → Entry) : Prop := arr.length = n ∧ ∀ i, i < n → arr[i]? = some (some (f i))

theorem entry_arr {arr : List (Option Entry)} {n : Nat} {f : Nat → Entry} (h : Arr arr n f) {i : Int} (h0 : 0 ≤ i) (h1 : i < n) :
    entry arr i = some (f i.toNat) := by
  unfold entry
  rw [if_pos h0, h.2 i.toNat (by omega)]
  rfl

theorem arr_set {arr : List (Option Entry)} {n : Nat} {f : Nat → Entry} (h : Arr arr n f) (j : Nat) (e : Entry) :
    Arr (arr.set j (some e)) n (fun i => if i = j then e else f i) := by
  refine ⟨by rw [List.length_set]; exact h.1, ?_⟩
  intro i hi
  by_cases hj : i = j
  · subst hj
    simp [List.getElem?_set_self (show i < arr.length by rw [h.1]; exact hi)]
  · rw [List.getElem?_set_ne (fun h => hj h.symm), h.2 i hi]
    simp [hj]

theorem arr_congr {arr : List (Option Entry)} {n : Nat} {f f' : Nat → Entry} (h : Arr arr n f) (he : ∀ i, i < n → f i = f' i) : Arr arr n f' :=
  ⟨h.1, fun i hi => by rw [h.2 i hi, he i hi]⟩

theorem beforeLoop_eq (lo : Nat) (s : FdSet) (a : Ev) (len : Nat) : ∀ (n : Nat) (fd : Nat) (arr : List (Option Entry)) (f : Nat → Entry),
    Arr arr len f → fd + n ≤ 1024 → lo ≤ fd → fd + n ≤ lo + len →
    ∃ arr', beforeLoop lo s a n fd arr = some arr' ∧
      Arr arr' len (fun i => if fd ≤ lo + i ∧ lo + i < fd + n then mark lo s a f i else f i) := by
  intro n
  induction n with
  | zero =>
    intro fd arr f h _ _ _
    refine ⟨arr, rfl, arr_congr h fun i _ => ?_⟩
    rw [if_neg (by omega)]
  | succ n ih =>
    intro fd arr f h h1 h2 h3
    unfold beforeLoop
    rw [Mux.isset_valid ⟨by omega, by omega⟩, Option.bind_some]
    simp only [Int.toNat_natCast]
    by_cases ha : s.active fd = true
    rotate_left
    · rw [if_neg ha]
      obtain ⟨arr', e1, e2⟩ := ih (fd + 1) arr f h (by omega) (by omega) (by omega)
      refine ⟨arr', e1, arr_congr e2 fun i _ => ?_⟩
      by_cases hi : lo + i = fd
      · rw [if_neg (by omega), if_pos (by omega), mark, hi, if_neg ha]
      · by_cases hj : fd + 1 ≤ lo + i ∧ lo + i < fd + 1 + n
        · rw [if_pos hj, if_pos (by omega)]
        · rw [if_neg hj, if_neg (by omega)]
    · rw [if_pos ha]
      rw [entry_arr h (by omega) (by omega), Option.bind_some]
      have et : ((fd : Int) - (lo : Int)).toNat = fd - lo := by omega
      rw [et]
      obtain ⟨arr', e1, e2⟩ := ih (fd + 1) _ _ (arr_set h (fd - lo) { f (fd - lo) with fd := (fd : Int), events := (f (fd - lo)).events.or a })
        (by omega) (by omega) (by omega)
      refine ⟨arr', e1, arr_congr e2 fun i _ => ?_⟩
      by_cases hi : lo + i = fd
      · have hi' : i = fd - lo := by omega
        rw [if_neg (show ¬ (fd + 1 ≤ lo + i ∧ lo + i < fd + 1 + n) by omega), if_pos hi', if_pos (by omega), mark, hi, if_pos ha, ← hi']
      · by_cases hj : fd + 1 ≤ lo + i ∧ lo + i < fd + 1 + n
        · rw [if_pos hj, if_pos (by omega)]
          unfold mark
          simp only [show ¬ i = fd - lo by omega, if_false]
        · rw [if_neg hj, if_neg (by omega), if_neg (by omega)]

theorem before_eq {lo len : Nat} {s : FdSet} (hi : SetInv s) (a : Ev) {arr : List (Option Entry)} {f : Nat → Entry} (h : Arr arr len f)
    (hr : ∀ i, s.active i = true → lo ≤ i ∧ i < lo + len) : ∃ arr', before lo s a arr = some arr' ∧ Arr arr' len (mark lo s a f) := by
  unfold before
  rcases bounds_pos hi.bounds hi.small with ⟨h0, h1, h2⟩ | ⟨h0, h1, h2, h3⟩
  · rw [if_neg (by omega)]
    refine ⟨arr, rfl, arr_congr h fun i _ => ?_⟩
    unfold mark
    rw [h0, if_neg (by decide)]
  · rw [if_pos (by omega)]
    obtain ⟨⟨i, x1, x2⟩, j, y1, y2⟩ := hi.bounds.2.1 h0
    have hx := hr i x1
    have hy := hr j y1
    have := beforeLoop_eq lo s a len (s.max + 1 - s.min).toNat s.min.toNat arr f h (by omega) (by omega) (by omega)
    rw [show ((s.min.toNat : Nat) : Int) = s.min by omega] at this
    obtain ⟨arr', e1, e2⟩ := this
    refine ⟨arr', e1, arr_congr e2 fun l _ => ?_⟩
    by_cases hl : s.min.toNat ≤ lo + l ∧ lo + l < s.min.toNat + (s.max + 1 - s.min).toNat
    · rw [if_pos hl]
    · rw [if_neg hl]
      unfold mark
      cases hact : s.active (lo + l)
      · simp
      · have := hi.bounds.1 _ hact
        omega

/-- What the element of a descriptor must be, apart from what has been reported. -/
def wanted (g : Regs) (i : Nat) : Int × Ev :=
  (if any g i then (i : Int) else -1, ⟨g .read i || g .accept i, g .write i, g .urgent i || g .interrupt i⟩)

/-- The array has the registered descriptors and what is asked of them. -/
def Fits (arr : List (Option Entry)) (lo : Nat) (g : Regs) : Prop :=
  ∃ f, Arr arr arr.length f ∧ ∀ i, i < arr.length → ((f i).fd, (f i).events) = wanted g (lo + i)

theorem allBefore_eq {m : Mux} {g : Regs} (hi : MInv m g) {lo len : Nat} {arr : List (Option Entry)} (h : Arr arr len (fun _ => blank))
    (hr : ∀ i, any g i = true → lo ≤ i ∧ i < lo + len) : ∃ arr', allBefore lo m arr = some arr' ∧ arr'.length = len ∧ Fits arr' lo g := by
  have hr' : ∀ k i, (m.set k).active i = true → lo ≤ i ∧ i < lo + len := fun k i hk => hr i (any_of (k := k) (by rw [← hi.active]; exact hk))
  obtain ⟨a1, e1, f1⟩ := before_eq (hi.sets .read) (mask .read) h (hr' _)
  obtain ⟨a2, e2, f2⟩ := before_eq (hi.sets .write) (mask .write) f1 (hr' _)
  obtain ⟨a3, e3, f3⟩ := before_eq (hi.sets .accept) (mask .accept) f2 (hr' _)
  obtain ⟨a4, e4, f4⟩ := before_eq (hi.sets .urgent) (mask .urgent) f3 (hr' _)
  obtain ⟨a5, e5, f5⟩ := before_eq (hi.sets .interrupt) (mask .interrupt) f4 (hr' _)
  refine ⟨a5, ?_, f5.1, ?_⟩
  · unfold allBefore
    rw [e1, Option.bind_some, e2, Option.bind_some, e3, Option.bind_some, e4, Option.bind_some, e5]
  · refine ⟨_, by rw [f5.1]; exact f5, ?_⟩
    intro i _
    simp only [mark, hi.active, wanted, any, blank, mask, Ev.or]
    by_cases h1 : g .read (lo + i) = true <;> by_cases h2 : g .write (lo + i) = true <;> by_cases h3 : g .accept (lo + i) = true <;>
      by_cases h4 : g .urgent (lo + i) = true <;> by_cases h5 : g .interrupt (lo + i) = true <;> simp [h1, h2, h3, h4, h5]

end Diminuto.Poll
