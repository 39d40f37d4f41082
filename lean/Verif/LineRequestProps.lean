import Verif.LineRequestSpec
import Verif.FdProps

/-!
# Properties of the use of GPIO lines
-/

namespace Diminuto.LineRequest

variable {σ : Type}

theorem fill_ok (lines : List (BitVec 32)) : ∀ (offsets : List (BitVec 32)) (ii : Nat), (∀ l ∈ lines, l.toNat ≤ 63) → ii + lines.length ≤ offsets.length →
    (fill offsets ii lines).1 = ii + lines.length ∧ (fill offsets ii lines).2.length = offsets.length ∧
    ∀ j, (fill offsets ii lines).2[j]? = if ii ≤ j ∧ j < ii + lines.length then lines[j - ii]? else offsets[j]? := by
  induction lines with
  | nil =>
    intro offsets ii _ _
    refine ⟨rfl, rfl, fun j => ?_⟩
    rw [if_neg (by simp only [List.length_nil]; omega)]
    rfl
  | cons l ls ih =>
    intro offsets ii hl hlen
    rw [List.length_cons] at hlen ⊢
    have h1 := hl l List.mem_cons_self
    rw [fill, if_neg (by omega)]
    obtain ⟨h2, h3, h4⟩ := ih (offsets.set ii l) (ii + 1) (fun x hx => hl x (List.mem_cons_of_mem _ hx)) (by rw [List.length_set]; omega)
    refine ⟨by omega, by rw [h3, List.length_set], fun j => ?_⟩
    rw [h4 j, List.getElem?_set]
    by_cases hj : ii = j
    · subst hj
      rw [if_neg (by omega), if_pos rfl, if_pos (by omega), if_pos (by omega), Nat.sub_self]
      rfl
    · by_cases hb : ii + 1 ≤ j ∧ j < ii + 1 + ls.length
      · rw [if_pos hb, if_pos (by omega)]
        have : j - ii = (j - (ii + 1)) + 1 := by omega
        rw [this, List.getElem?_cons_succ]
      · rw [if_neg hb, if_neg hj, if_neg (by omega)]

theorem fill_bad (lines : List (BitVec 32)) : ∀ (offsets : List (BitVec 32)) (ii : Nat), (∃ l ∈ lines, 64 ≤ l.toNat) → (fill offsets ii lines).1 < ii + lines.length := by
  induction lines with
  | nil => rintro offsets ii ⟨l, h, -⟩; cases h
  | cons l ls ih =>
    rintro offsets ii ⟨x, hx, h⟩
    rw [fill, List.length_cons]
    by_cases hl : l.toNat ≥ 64
    · rw [if_pos hl]
      simp only []
      omega
    · rw [if_neg hl]
      rcases List.mem_cons.1 hx with rfl | hx
      · omega
      · have := ih (offsets.set ii l) (ii + 1) ⟨x, hx, h⟩
        omega

theorem mask_bit (n : Nat) : ∀ (m : BitVec 64) (ii : Nat), ii + n ≤ 64 → ∀ i, (mask m ii n).getLsbD i = (m.getLsbD i || decide (ii ≤ i ∧ i < ii + n)) := by
  induction n with
  | zero =>
    intro m ii _ i
    have : ¬ (ii ≤ i ∧ i < ii + 0) := by omega
    rw [mask, decide_eq_false this, Bool.or_false]
  | succ n ih =>
    intro m ii h i
    rw [mask, ih _ (ii + 1) (by omega) i, BitVec.getLsbD_or, BitVec.getLsbD_shiftLeft]
    by_cases hi : i = ii
    · subst hi
      have h1 : i < 64 := by omega
      have h2 : i ≤ i ∧ i < i + (n + 1) := by omega
      simp [h1, h2]
    · by_cases hlt : i < ii
      · have h1 : ¬ (ii + 1 ≤ i ∧ i < ii + 1 + n) := by omega
        have h2 : ¬ (ii ≤ i ∧ i < ii + (n + 1)) := by omega
        simp [hlt, h1, h2]
      · have h0 : i - ii ≠ 0 := by omega
        have h1 : (1#64).getLsbD (i - ii) = false := by
          rw [show (1#64) = BitVec.twoPow 64 0 from rfl, BitVec.getLsbD_twoPow]
          simp; omega
        have h2 : (ii + 1 ≤ i ∧ i < ii + 1 + n) ↔ (ii ≤ i ∧ i < ii + (n + 1)) := by omega
        rw [h1]
        simp [h2]

theorem label_ok (c : List Byte) : (label c).length = 32 ∧ ((0#8 ∉ c) → (label c).takeWhile (· ≠ 0#8) = c.take 31) := by
  unfold label
  refine ⟨by simp, fun hc => ?_⟩
  have key : ((c ++ List.replicate 32 0#8).take 32).set 31 0#8 = c.take 31 ++ 0#8 :: List.replicate (31 - c.length) 0#8 := by
    apply List.ext_getElem?
    intro i
    rw [List.getElem?_set, List.length_take, List.length_append, List.length_replicate]
    by_cases hi : 31 = i
    · subst hi
      rw [if_pos rfl, if_pos (by omega)]
      by_cases hl : c.length ≤ 31
      · rw [List.take_of_length_le hl, List.getElem?_append_right hl, ← List.replicate_succ, List.getElem?_replicate, if_pos (by omega)]
      · rw [List.getElem?_append_right (by rw [List.length_take]; omega), List.length_take, Nat.min_eq_left (by omega), Nat.sub_self]
        rfl
    · rw [if_neg hi, List.getElem?_take]
      by_cases hin : i < 32
      · rw [if_pos hin]
        by_cases hl : i < c.length
        · rw [List.getElem?_append_left hl, List.getElem?_append_left (by rw [List.length_take]; omega), List.getElem?_take, if_pos (by omega)]
        · rw [List.getElem?_append_right (by omega), List.getElem?_replicate, if_pos (by omega), List.take_of_length_le (by omega),
            List.getElem?_append_right (by omega), ← List.replicate_succ, List.getElem?_replicate, if_pos (by omega)]
      · rw [if_neg hin]
        symm
        apply List.getElem?_eq_none
        simp
        omega
  rw [key, List.takeWhile_append_of_pos]
  · simp
  · intro b hb
    apply decide_eq_true
    rintro rfl
    exact hc (List.mem_of_mem_take hb)

/-- For admissible lines the kernel is asked for exactly these lines; the controller is opened before, and closed afterwards, whether that fails or not; and the descriptor that the kernel has made
is returned. -/
theorem line_open (w : World σ) (consumer path : List Byte) (lines : List (BitVec 32)) (h : Admissible lines) (flags : BitVec 64) (useconds : BitVec 32) :
    ∃ q, Asks q consumer lines flags useconds ∧ ∀ s,
      (∀ t, w.open_ path s = (none, t) → openGeneric w consumer path lines flags useconds s = (-1, t)) ∧
      (∀ fd t u, w.open_ path s = (some fd, t) → w.request fd q t = (none, u) → openGeneric w consumer path lines flags useconds s = (-1, (w.close fd u).2)) ∧
      (∀ fd t r u, w.open_ path s = (some fd, t) → w.request fd q t = (some r, u) → openGeneric w consumer path lines flags useconds s = (r, (w.close fd u).2)) := by
  obtain ⟨h1, h2, h3⟩ := h
  have hL : LINES = 64 := rfl
  obtain ⟨e1, e2, e3⟩ := fill_ok lines (List.replicate LINES 0#32) 0 h3 (by rw [List.length_replicate]; omega)
  rw [List.length_replicate] at e2
  refine ⟨⟨(fill (List.replicate LINES 0#32) 0 lines).2, label consumer, flags, if useconds.toNat > 0 then some (mask 0#64 0 lines.length, useconds) else none,
    BitVec.ofNat 32 lines.length⟩, ⟨?_, e2, ?_, ?_, rfl, ?_, ?_, label_ok consumer⟩, fun s => ?_⟩
  · simp only [BitVec.toNat_ofNat]
    omega
  · intro i l hi
    have hlt : i < lines.length := by
      rcases Nat.lt_or_ge i lines.length with h | h
      · exact h
      · rw [List.getElem?_eq_none h] at hi
        cases hi
    simp only []
    rw [e3 i, if_pos (by omega), Nat.sub_zero, hi]
  · intro i hi h64
    simp only []
    rw [e3 i, if_neg (by omega), List.getElem?_replicate, if_pos (by omega)]
  · rintro rfl
    rfl
  · intro hu
    have hpos : useconds.toNat > 0 := by
      rcases Nat.eq_zero_or_pos useconds.toNat with h | h
      · exact absurd (BitVec.eq_of_toNat_eq h) hu
      · exact h
    refine ⟨mask 0#64 0 lines.length, if_pos hpos, fun i => ?_⟩
    rw [mask_bit lines.length 0#64 0 (by omega) i]
    simp
  · have hc : ¬ ¬ (0 < lines.length ∧ lines.length < LINES) := by omega
    unfold openGeneric
    rw [if_neg hc]
    simp only []
    rw [if_neg (by omega)]
    refine ⟨fun t ho => ?_, fun fd t u ho hr => ?_, fun fd t r u ho hr => ?_⟩
    · rw [ho]
    · rw [ho]
      simp only []
      rw [hr]
    · rw [ho]
      simp only []
      rw [hr]

example : Admissible [3#32, 17#32] := by
  refine ⟨by simp, by simp, fun l hl => ?_⟩
  simp only [List.mem_cons, List.not_mem_nil, or_false] at hl
  rcases hl with rfl | rfl <;> simp

/-- All other requests are refused, and no system call is made. -/
theorem line_open_refused (w : World σ) (consumer path : List Byte) (lines : List (BitVec 32)) (h : ¬ Admissible lines) (flags : BitVec 64) (useconds : BitVec 32) (s : σ) :
    openGeneric w consumer path lines flags useconds s = (-1, s) := by
  have hL : LINES = 64 := rfl
  unfold openGeneric
  by_cases hc : 0 < lines.length ∧ lines.length < LINES
  · rw [if_neg (fun h => h hc)]
    simp only []
    have hb : ∃ l ∈ lines, 64 ≤ l.toNat := by
      apply Classical.byContradiction
      intro hn
      exact h ⟨by omega, by omega, fun l hl => Nat.le_of_not_lt fun hlt => hn ⟨l, hl, hlt⟩⟩
    have := fill_bad lines (List.replicate LINES 0#32) 0 hb
    rw [if_pos (by omega)]
  · rw [if_pos hc]

example : ¬ Admissible [64#32] := fun h => absurd (h.2.2 _ (List.mem_singleton.2 rfl)) (by decide)

/-- The array has room for 64 lines, but a request for that many is refused. -/
theorem line_open_full_counterexample (w : World σ) (consumer path : List Byte) (lines : List (BitVec 32)) (h : lines.length = 64) (flags : BitVec 64) (useconds : BitVec 32) (s : σ) :
    openGeneric w consumer path lines flags useconds s = (-1, s) :=
  line_open_refused w consumer path lines (fun ha => absurd ha.2.1 (by omega)) flags useconds s

/-- A descriptor that is negative is not closed; otherwise -1 is returned if it has been closed, and the descriptor if that failed. -/
theorem line_close (w : World σ) (fd : Int) (s : σ) :
    (fd < 0 → close w fd s = (fd, s)) ∧ (0 ≤ fd → (close w fd s).2 = (w.close fd s).2 ∧ ((close w fd s).1 = if (w.close fd s).1 then -1 else fd)) := by
  unfold close
  constructor
  · intro h
    rw [if_pos h]
  · intro h
    rw [if_neg (by omega)]
    rcases w.close fd s with ⟨r, t⟩
    cases r <;> exact ⟨rfl, rfl⟩

example : (0 : Int) ≤ 3 := by decide

section
variable {w : World σ} {values : σ → Int → BitVec 64} (hw : Honest w values)
include hw

/-- To get lines does not change any; it succeeds only if there are lines in the mask, and then the bits are the values of these lines, and otherwise the variable is left as it is. -/
theorem line_get_generic (fd : Int) (m bits : BitVec 64) (s : σ) :
    values (getGeneric w fd m bits s).2 = values s ∧
    (m = 0#64 → getGeneric w fd m bits s = ((-1, bits), s)) ∧
    ((getGeneric w fd m bits s).1.1 < 0 → (getGeneric w fd m bits s).1.2 = bits) ∧
    (0 ≤ (getGeneric w fd m bits s).1.1 → m ≠ 0#64 ∧ ∀ i, (getGeneric w fd m bits s).1.2.getLsbD i = ((values s fd).getLsbD i && m.getLsbD i)) := by
  unfold getGeneric
  by_cases hm : m = 0#64
  · rw [if_pos hm]
    exact ⟨rfl, fun _ => rfl, fun _ => rfl, fun h => absurd h (by simp only []; omega)⟩
  · rw [if_neg hm]
    rcases hg : w.getValues fd m s with ⟨r, t⟩
    cases r with
    | none => exact ⟨hw.getFailed _ _ _ _ hg, fun h => absurd h hm, fun _ => rfl, fun h => absurd h (by simp only []; omega)⟩
    | some x =>
      obtain ⟨rc, b⟩ := x
      obtain ⟨h1, h2⟩ := hw.get _ _ _ _ _ _ hg
      exact ⟨h1, fun h => absurd h hm, fun h => absurd h (by simp only []; omega), fun _ => ⟨hm, h2⟩⟩

/-- To put lines changes, if it succeeds, exactly those in the mask, to the bits, and otherwise none; lines of other descriptors are never changed. -/
theorem line_put_generic (fd : Int) (m bits : BitVec 64) (s : σ) :
    (∀ fd', fd' ≠ fd → values (putGeneric w fd m bits s).2 fd' = values s fd') ∧
    (m = 0#64 → putGeneric w fd m bits s = (-1, s)) ∧
    ((putGeneric w fd m bits s).1 < 0 → values (putGeneric w fd m bits s).2 = values s) ∧
    (0 ≤ (putGeneric w fd m bits s).1 → m ≠ 0#64 ∧
      ∀ i, (values (putGeneric w fd m bits s).2 fd).getLsbD i = if m.getLsbD i then bits.getLsbD i else (values s fd).getLsbD i) := by
  unfold putGeneric
  by_cases hm : m = 0#64
  · rw [if_pos hm]
    exact ⟨fun _ _ => rfl, fun _ => rfl, fun _ => rfl, fun h => absurd h (by simp only []; omega)⟩
  · rw [if_neg hm]
    rcases hg : w.setValues fd m bits s with ⟨r, t⟩
    cases r with
    | none =>
      have := hw.setFailed _ _ _ _ _ hg
      exact ⟨fun fd' _ => by rw [this], fun h => absurd h hm, fun _ => this, fun h => absurd h (by simp only []; omega)⟩
    | some rc =>
      obtain ⟨h1, h2⟩ := hw.set _ _ _ _ _ _ hg
      exact ⟨h1, fun h => absurd h hm, fun h => absurd h (by simp only []; omega), fun _ => ⟨hm, h2⟩⟩

/-- To get a single line returns 0 or 1, its value, or -1. -/
theorem line_get (fd : Int) (s : σ) :
    values (get w fd s).2 = values s ∧ ((get w fd s).1 = -1 ∨ (get w fd s).1 = if (values s fd).getLsbD 0 then 1 else 0) := by
  unfold get
  obtain ⟨h1, -, -, h4⟩ := line_get_generic hw fd 1#64 0#64 s
  rcases hg : getGeneric w fd 1#64 0#64 s with ⟨⟨rc, b⟩, t⟩
  rw [hg] at h1 h4
  simp only [] at h1 h4 ⊢
  by_cases hr : rc < 0
  · rw [if_pos hr]
    exact ⟨h1, .inl rfl⟩
  · rw [if_neg hr]
    refine ⟨h1, .inr ?_⟩
    have hb := (h4 (by omega)).2 0
    have h10 : (1#64).getLsbD 0 = true := rfl
    rw [h10, Bool.and_true] at hb
    rw [← hb]
    have key : b &&& 1#64 ≠ 0#64 ↔ b.getLsbD 0 = true := by
      constructor
      · intro h
        cases hb0 : b.getLsbD 0 with
        | true => rfl
        | false =>
          exfalso
          apply h
          apply BitVec.eq_of_getLsbD_eq
          intro i hi
          rw [BitVec.getLsbD_and]
          by_cases hi0 : i = 0
          · subst hi0
            rw [hb0]
            rfl
          · have : (1#64).getLsbD i = false := by
              rw [show (1#64) = BitVec.twoPow 64 0 from rfl, BitVec.getLsbD_twoPow]
              simp; omega
            rw [this]
            simp
      · intro h e
        have := congrArg (fun x => BitVec.getLsbD x 0) e
        simp only [BitVec.getLsbD_and, h, h10] at this
        revert this
        decide
    by_cases hb0 : b.getLsbD 0 = true
    · rw [if_pos (key.2 hb0), if_pos hb0]
    · rw [if_neg (fun e => hb0 (key.1 e)), if_neg hb0]

/-- To put a single line returns the state, and the line has the value then and no other line has changed, or something negative, and nothing has changed.  The full claim is for any state that is
not zero. -/
theorem line_put_partial (fd state : Int) (h : 0 ≤ state) (s : σ) :
    ((put w fd state s).1 < 0 → values (put w fd state s).2 = values s) ∧
    (0 ≤ (put w fd state s).1 → (put w fd state s).1 = state ∧ ((values (put w fd state s).2 fd).getLsbD 0 = decide (state ≠ 0)) ∧
      (∀ i, i ≠ 0 → (values (put w fd state s).2 fd).getLsbD i = (values s fd).getLsbD i) ∧ ∀ fd', fd' ≠ fd → values (put w fd state s).2 fd' = values s fd') := by
  unfold put
  obtain ⟨h1, -, h3, h4⟩ := line_put_generic hw fd 1#64 (if state ≠ 0 then 1#64 else 0#64) s
  rcases hg : putGeneric w fd 1#64 (if state ≠ 0 then 1#64 else 0#64) s with ⟨rc, t⟩
  rw [hg] at h1 h3 h4
  simp only [] at h1 h3 h4 ⊢
  by_cases hr : rc < 0
  · rw [if_pos hr]
    exact ⟨fun _ => h3 hr, fun h => absurd h (by simp only []; omega)⟩
  · rw [if_neg hr]
    refine ⟨fun hn => absurd hn (by simp only []; omega), fun _ => ?_⟩
    have hb := (h4 (by omega)).2
    refine ⟨rfl, ?_, ?_, h1⟩
    · have := hb 0
      have h10 : (1#64).getLsbD 0 = true := rfl
      rw [h10, if_pos rfl] at this
      simp only []
      rw [this]
      by_cases hs : state ≠ 0
      · rw [if_pos hs, h10]
        exact (decide_eq_true hs).symm
      · rw [if_neg hs]
        exact (decide_eq_false hs).symm
    · intro i hi
      have := hb i
      have h1i : (1#64).getLsbD i = false := by
        rw [show (1#64) = BitVec.twoPow 64 0 from rfl, BitVec.getLsbD_twoPow]
        simp; omega
      rw [h1i] at this
      simpa using this

end

/-- What is put is what is got. -/
theorem line_put_get {w : World σ} {values : σ → Int → BitVec 64} (hw : Honest w values) (fd state : Int) (h : 0 ≤ state) (s : σ) (hp : 0 ≤ (put w fd state s).1)
    (hg : 0 ≤ (get w fd (put w fd state s).2).1) : (get w fd (put w fd state s).2).1 = if state = 0 then 0 else 1 := by
  obtain ⟨-, h2, -⟩ := (line_put_partial hw fd state h s).2 hp
  rcases (line_get hw fd (put w fd state s).2).2 with h3 | h3
  · omega
  · rw [h3, h2]
    by_cases hs : state = 0
    · rw [if_pos hs, hs]
      rfl
    · rw [if_neg hs, decide_eq_true hs]
      rfl

/-- A kernel with one descriptor whose calls never fail. -/
def kernel : World (BitVec 64) where
  open_ := fun _ s => (some 3, s)
  request := fun _ _ s => (some 4, s)
  getValues := fun _ m s => (some (0, s &&& m), s)
  setValues := fun fd m b s => (some 0, if fd = 4 then (s &&& ~~~ m) ||| (b &&& m) else s)
  close := fun _ s => (true, s)

/-- Lines of the descriptor 4 are put, and got. -/
example : (get kernel 4 (put kernel 4 1 0#64).2).1 = 1 ∧ (put kernel 4 1 0#64).1 = 1 := by decide

/-- A kernel in which each descriptor has lines of its own. -/
def single : World (Int → BitVec 64) where
  open_ := fun _ s => (some 3, s)
  request := fun _ _ s => (some 4, s)
  getValues := fun fd m s => (some (0, s fd &&& m), s)
  setValues := fun fd m b s => (some 0, fun f => if f = fd then (s f &&& ~~~ m) ||| (b &&& m) else s f)
  close := fun _ s => (true, s)

example : Honest single fun s fd => s fd where
  get := by
    intro fd m s rc b t h
    cases h
    exact ⟨rfl, fun i => BitVec.getLsbD_and⟩
  set := by
    intro fd m b s rc t h
    cases h
    refine ⟨fun fd' hne => if_neg hne, fun i => ?_⟩
    simp only [if_true, BitVec.getLsbD_or, BitVec.getLsbD_and, BitVec.getLsbD_not]
    by_cases hi : i < 64
    · cases m.getLsbD i <;> simp [hi]
    · simp [BitVec.getLsbD_of_ge _ i (Nat.le_of_not_lt hi), hi]
  getFailed := by intro fd m s t h; cases h
  setFailed := by intro fd m b s t h; cases h

/-- If the state is -1, which is not zero, -1 is returned, as if the line could not be put, though it has been. -/
theorem line_put_negative_counterexample : (put kernel 4 (-1) 0#64).1 = -1 ∧ (put kernel 4 (-1) 0#64).2.getLsbD 0 = true := by decide

/-- Nothing outside of the event is touched; 1 is returned exactly if a whole event has been read that says that the edge was rising, 0 exactly if one that says that it was falling, and -1
otherwise; and no more than an event is taken from the kernel. -/
theorem line_read (k : List Fd.Source) :
    read k ≠ .undefined ∧
    ∀ r k', read k = .done (r, k') → ∃ event, Fd.available k = event ++ Fd.available k' ∧ event.length ≤ 48 ∧
      (r = 1 ↔ event.length = 48 ∧ (event.drop 8).take 4 = [1#8, 0#8, 0#8, 0#8]) ∧
      (r = 0 ↔ event.length = 48 ∧ (event.drop 8).take 4 = [2#8, 0#8, 0#8, 0#8]) ∧
      (r ≠ 1 → r ≠ 0 → r = -1) := by
  obtain ⟨hu, hd⟩ := Fd.fd_read_exact k (List.replicate EVENT 0#8) 48#64 48#64 (by decide) (by rw [List.length_replicate]; decide)
  unfold read
  constructor
  · intro h
    cases hg : Fd.readGeneric k (List.replicate EVENT 0#8) 48#64 48#64 with
    | done g => rw [hg] at h; cases h
    | blocks => rw [hg] at h; cases h
    | undefined => exact hu hg
  · intro r k' h
    cases hg : Fd.readGeneric k (List.replicate EVENT 0#8) 48#64 48#64 with
    | blocks => rw [hg] at h; cases h
    | undefined => exact absurd hg hu
    | done g =>
      rw [hg] at h
      obtain ⟨-, h2, h3, h4, h5⟩ := hd g hg
      have hE : (EVENT : Int) = 48 := rfl
      have h48 : (48#64).toNat = 48 := rfl
      rw [h48] at h4
      simp only [Fd.Outcome.map, Fd.Outcome.done.injEq, Prod.mk.injEq] at h
      obtain ⟨hr, rfl⟩ := h
      refine ⟨Fd.bytesOf g.calls, h2, h4, ?_⟩
      by_cases hlen : (Fd.bytesOf g.calls).length = 48
      · have hne : Fd.bytesOf g.calls ≠ [] := by
          intro e
          rw [e] at hlen
          cases hlen
        rw [if_neg (fun e => hne e.1), hlen] at h5
        have hmem : g.mem = Fd.bytesOf g.calls := by
          rw [h3, hlen, List.drop_eq_nil_of_le (by rw [List.length_replicate]; decide), List.append_nil]
        rw [h5, hmem, if_neg (by decide), if_neg (by decide), if_neg (by decide)] at hr
        generalize Fd.bytesOf g.calls = e at hr hlen
        have hget : ∀ i, i < 48 → e[i]? = some (e.getD i 0#8) := by
          intro i hi
          rw [List.getD_eq_getElem?_getD, List.getElem?_eq_getElem (by omega)]
          rfl
        have ht : (e.drop 8).take 4 = [e.getD 8 0#8, e.getD 9 0#8, e.getD 10 0#8, e.getD 11 0#8] := by
          apply List.ext_getElem?
          intro i
          rw [List.getElem?_take, List.getElem?_drop]
          rcases Nat.lt_or_ge i 4 with hi | hi
          · rw [if_pos hi, hget (8 + i) (by omega)]
            have : i = 0 ∨ i = 1 ∨ i = 2 ∨ i = 3 := by omega
            rcases this with rfl | rfl | rfl | rfl <;> rfl
          · rw [if_neg (by omega), List.getElem?_eq_none (by simp; omega)]
        have hid : ∀ v : Byte, ident e = v.toNat ↔ (e.drop 8).take 4 = [v, 0#8, 0#8, 0#8] := by
          intro v
          rw [ht]
          unfold ident
          have b0 := v.isLt
          have b8 := (e.getD 8 0#8).isLt
          have b9 := (e.getD 9 0#8).isLt
          have b10 := (e.getD 10 0#8).isLt
          have b11 := (e.getD 11 0#8).isLt
          constructor
          · intro h
            have e8 : e.getD 8 0#8 = v := BitVec.eq_of_toNat_eq (by omega)
            have e9 : e.getD 9 0#8 = 0#8 := BitVec.eq_of_toNat_eq (by rw [show (0#8).toNat = 0 from rfl]; omega)
            have e10 : e.getD 10 0#8 = 0#8 := BitVec.eq_of_toNat_eq (by rw [show (0#8).toNat = 0 from rfl]; omega)
            have e11 : e.getD 11 0#8 = 0#8 := BitVec.eq_of_toNat_eq (by rw [show (0#8).toNat = 0 from rfl]; omega)
            rw [e8, e9, e10, e11]
          · intro h
            simp only [List.cons.injEq, and_true] at h
            obtain ⟨e8, e9, e10, e11⟩ := h
            rw [e8, e9, e10, e11, show (0#8).toNat = 0 from rfl]
            omega
        have h1 := hid 1#8
        have h2' := hid 2#8
        rw [show (1#8).toNat = 1 from rfl] at h1
        rw [show (2#8).toNat = 2 from rfl] at h2'
        rw [← h1, ← h2']
        subst hr
        refine ⟨?_, ?_, ?_⟩
        · constructor
          · intro h
            refine ⟨hlen, ?_⟩
            split at h
            · assumption
            · split at h <;> cases h
          · rintro ⟨-, h⟩
            rw [if_pos h]
        · constructor
          · intro h
            refine ⟨hlen, ?_⟩
            split at h
            · cases h
            · split at h
              · assumption
              · cases h
          · rintro ⟨-, h⟩
            rw [if_neg (by omega), if_pos h]
        · intro n1 n0
          split at n1
          · exact absurd rfl n1
          · rename_i hn1
            rw [if_neg hn1] at n0 ⊢
            split at n0
            · exact absurd rfl n0
            · rename_i hn2
              rw [if_neg hn2]
      · have hm1 : r = -1 := by
          rw [← hr]
          by_cases hlt : g.ret < 0
          · rw [if_pos hlt]
          · rw [if_neg hlt]
            by_cases h0 : g.ret = 0
            · rw [if_pos h0]
            · rw [if_neg h0, if_pos]
              rw [h5]
              split
              · omega
              · omega
        subst hm1
        exact ⟨⟨fun h => (by cases h), fun h => absurd h.1 hlen⟩, ⟨fun h => (by cases h), fun h => absurd h.1 hlen⟩, fun _ _ => rfl⟩

/-- An event with a rising edge, in two parts, and something after it. -/
example : read [.data (List.replicate 8 7#8 ++ [1#8]), .data (List.replicate 40 0#8)] = .done (1, [.data [0#8]]) := by decide

end Diminuto.LineRequest
