import Verif.LuxtoolLemmas

/-! # Properties of reading a light sensor, and of the tool that computes the brightness -/

namespace Diminuto.Luxtool

open Lux

variable {rnd pow : Rat → Rat}

/-- If the four registers can be read then zero is returned, and in the buffer is the brightness for the channels that are made of their lower and higher bytes, which were read in the required order. -/
theorem luxtool_sense {σ : Type} (w : I2c.World σ) (fd : Int) (device : BitVec 8) (buffer : Rat) (s t : σ) (a b c d : Byte) (h : Reads w fd device registers s [a, b, c, d] t) :
    sense w rnd pow fd device buffer s = (0, lux rnd pow (a.toNat + 256 * b.toNat) (c.toNat + 256 * d.toNat), t) := by
  unfold registers at h
  cases h with
  | cons h1 r1 h =>
    cases h with
    | cons h2 r2 h =>
      cases h with
      | cons h3 r3 h =>
        cases h with
        | cons h4 r4 h =>
          cases h
          unfold sense
          have one : ∀ {reg datum b s t} {rc : Int}, I2c.get w fd device reg 1 s = (⟨rc, [b]⟩, t) → getByte w fd device reg datum s = (rc, b, t) := by
            intro reg datum b s t rc h
            rw [getByte, h]
            rfl
          rw [show (0x80#8 ||| 0x40#8 ||| 0xc#8) = 0xcc#8 by decide, show (0x80#8 ||| 0xd#8) = 0x8d#8 by decide, show (0x80#8 ||| 0xe#8) = 0x8e#8 by decide,
            show (0x80#8 ||| 0xf#8) = 0x8f#8 by decide]
          simp only [one h1]
          rw [if_neg (not_lt.2 r1)]
          simp only [one h2]
          rw [if_neg (not_lt.2 r2)]
          simp only [one h3]
          rw [if_neg (not_lt.2 r3)]
          simp only [one h4]
          rw [if_neg (not_lt.2 r4), word, word]

/-- Otherwise what is returned is negative, and it is what the first read that failed has returned; after that nothing is read any more, and the buffer is unchanged. -/
theorem luxtool_sense_fails {σ : Type} (w : I2c.World σ) (hw : Stores w) (fd : Int) (device : BitVec 8) (buffer : Rat) (s : σ) :
    (∃ a b c d t, Reads w fd device registers s [a, b, c, d] t) ∨
    ∃ pre reg post bs t r u, registers = pre ++ reg :: post ∧ Reads w fd device pre s bs t ∧ I2c.get w fd device reg 1 t = (r, u) ∧ r.rc < 0 ∧
      sense w rnd pow fd device buffer s = (r.rc, buffer, u) := by
  have step : ∀ reg datum t, (∃ rc b u, 0 ≤ rc ∧ I2c.get w fd device reg 1 t = (⟨rc, [b]⟩, u) ∧ getByte w fd device reg datum t = (rc, b, u)) ∨
      (∃ r b u, r.rc < 0 ∧ I2c.get w fd device reg 1 t = (r, u) ∧ getByte w fd device reg datum t = (r.rc, b, u)) := by
    intro reg datum t
    rcases hg : I2c.get w fd device reg 1 t with ⟨⟨rc, got⟩, u⟩
    by_cases hr : 0 ≤ rc
    · obtain ⟨b, hb⟩ := hw fd device reg t _ u hg hr
      simp only at hb
      subst hb
      exact .inl ⟨rc, b, u, hr, rfl, by rw [getByte, hg]; rfl⟩
    · exact .inr ⟨⟨rc, got⟩, got.headD datum, u, not_le.1 hr, rfl, by rw [getByte, hg]⟩
  have k1 : (0x80#8 ||| 0x40#8 ||| 0xc#8) = 0xcc#8 := by decide
  have k2 : (0x80#8 ||| 0xd#8) = 0x8d#8 := by decide
  have k3 : (0x80#8 ||| 0xe#8) = 0x8e#8 := by decide
  have k4 : (0x80#8 ||| 0xf#8) = 0x8f#8 := by decide
  unfold sense
  rw [k1, k2, k3, k4]
  rcases step 0xcc#8 0#8 s with ⟨rc, a, t1, p1, g1, e1⟩ | ⟨r, b, u, n, g, e⟩
  · simp only [e1]
    rw [if_neg (not_lt.2 p1)]
    rcases step 0x8d#8 a t1 with ⟨rc, b, t2, p2, g2, e2⟩ | ⟨r, b, u, n, g, e⟩
    · simp only [e2]
      rw [if_neg (not_lt.2 p2)]
      rcases step 0x8e#8 b t2 with ⟨rc, c, t3, p3, g3, e3⟩ | ⟨r, x, u, n, g, e⟩
      · simp only [e3]
        rw [if_neg (not_lt.2 p3)]
        rcases step 0x8f#8 c t3 with ⟨rc, d, t4, p4, g4, e4⟩ | ⟨r, x, u, n, g, e⟩
        · exact .inl ⟨a, b, c, d, t4, .cons g1 p1 (.cons g2 p2 (.cons g3 p3 (.cons g4 p4 .nil)))⟩
        · simp only [e]
          rw [if_pos n]
          exact .inr ⟨[0xcc#8, 0x8d#8, 0x8e#8], 0x8f#8, [], _, t3, r, u, rfl, .cons g1 p1 (.cons g2 p2 (.cons g3 p3 .nil)), g, n, rfl⟩
      · simp only [e]
        rw [if_pos n]
        exact .inr ⟨[0xcc#8, 0x8d#8], 0x8e#8, [0x8f#8], _, t2, r, u, rfl, .cons g1 p1 (.cons g2 p2 .nil), g, n, rfl⟩
    · simp only [e]
      rw [if_pos n]
      exact .inr ⟨[0xcc#8], 0x8d#8, [0x8e#8, 0x8f#8], _, t1, r, u, rfl, .cons g1 p1 .nil, g, n, rfl⟩
  · simp only [e]
    rw [if_pos n]
    exact .inr ⟨[], 0xcc#8, [0x8d#8, 0x8e#8, 0x8f#8], _, s, r, u, rfl, .nil, g, n, rfl⟩

/-- The extremes that the tool prints for `-p` are those of all pairs of values: the least is zero, for zero and zero, and the greatest that for the greatest total and no infrared, as it says in a comment. -/
theorem luxtool_extremes (h : Rounding rnd) (hp : Power pow) :
    main rnd pow [[45#8, 112#8]] = .extremes (0, 0, 0) (65535, 0, lux rnd pow 65535 0) ∧
    (∀ raw0 raw1, raw0 < 2 ^ 16 → raw1 < 2 ^ 16 → 0 ≤ lux rnd pow raw0 raw1 ∧ lux rnd pow raw0 raw1 ≤ lux rnd pow 65535 0) := by
  have rng := fun raw0 raw1 (h0 : raw0 < 2 ^ 16) => lux_range h hp raw0 raw1 h0
  refine ⟨?_, fun raw0 raw1 h0 _ => ⟨(rng raw0 raw1 h0).1, (rng raw0 raw1 h0).2.2.1⟩⟩
  rw [main, if_pos rfl]
  have top := rng 65535 0 (by decide)
  have e00 : lux rnd pow 0 0 = 0 := ((rng 0 0 (by decide)).2.1).2 (.inl rfl)
  have pos : (0 : Rat) < MAXDOUBLE := by
    unfold MAXDOUBLE
    exact mul_pos (by norm_num) (by positivity)
  have small : MINDOUBLE ≤ 1 := by
    unfold MINDOUBLE
    rw [div_le_one (by positivity)]
    exact one_le_pow₀ (by norm_num)
  have hmin : (extremes (lux rnd pow) 65536).1 = (0, 0, 0) := by
    obtain ⟨l, hl⟩ := raws_first 65535
    unfold extremes
    rw [hl, List.foldl_cons, visit]
    simp only [e00]
    rw [if_pos pos]
    refine fold_min _ _ _ _ fun x hx => (rng x.1 x.2 ?_).1
    exact ((mem_raws 65536 x).1 (by rw [hl]; exact List.mem_cons_of_mem _ hx)).1
  have hmax : (extremes (lux rnd pow) 65536).2 = (65535, 0, lux rnd pow 65535 0) := by
    obtain ⟨l, m, e, h1, h2, h3⟩ := raws_last 65535
    unfold extremes
    rw [e]
    refine fold_first _ l m (65535, 0) _ _ ?_ ?_ ?_
    · have := top.2.2.2.1
      norm_num at this
      show MINDOUBLE < lux rnd pow 65535 0
      linarith
    · intro y hy
      have hy1 : y.1 ≤ 65534 := by
        have := h1 y hy
        omega
      have hy2 : (y.1 : Rat) ≤ 65534 := by exact_mod_cast hy1
      have ylo : (0 : Rat) ≤ y.1 := by positivity
      have near := lux_near h hp y.1 y.2 (by omega)
      have low := top.2.2.2.1
      have up : formula (pow (quot rnd y.1 y.2)) y.1 y.2 ≤ 304 / 10000 * y.1 := by
        have b0 := formula_bounds 0 y.1 y.2 ⟨le_refl _, by norm_num⟩
        have other : ∀ p, band y.1 y.2 ≠ 1 → formula p y.1 y.2 = formula 0 y.1 y.2 := by
          intro p hb
          rcases band_cases y.1 y.2 with ⟨e, -⟩ | ⟨e, -⟩ | ⟨e, -⟩ | ⟨e, -⟩ | ⟨e, -⟩
          · exact absurd e hb
          all_goals simp [formula, e]
        rcases band_cases y.1 y.2 with ⟨e, g0, g⟩ | ⟨e, -⟩ | ⟨e, -⟩ | ⟨e, -⟩ | ⟨e, -⟩
        · obtain ⟨q0, q1⟩ := quot_bound h y.1 y.2 g0 g
          obtain ⟨p0, p1⟩ := hp.bound _ q0 q1
          exact ((formula_bounds _ y.1 y.2 ⟨p0, by linarith⟩).1 e).2
        · rw [other _ (by omega)]
          linarith [(b0.2.1 e).2]
        · rw [other _ (by omega)]
          linarith [(b0.2.2.1 e).2]
        · rw [other _ (by omega)]
          linarith [(b0.2.2.2.1 e).2]
        · rw [other _ (by omega), b0.2.2.2.2 e]
          linarith
      norm_num at low near up
      show lux rnd pow y.1 y.2 < lux rnd pow 65535 0
      linarith [near.2]
    · intro y hy
      exact (rng y.1 y.2 ((mem_raws 65536 y).1 (h3 y hy)).1).2.2.1
  rw [hmin, hmax]

/-- Two operands, perhaps after `-d`, that have values below 65536: the brightness for these is printed. -/
theorem luxtool_brightness_partial (t u : List Byte) (v x : Nat) (ht : Operand t v) (hu : Operand u x) (hv : v < 65536) (hx : x < 65536) (more : List (List Byte)) :
    (t ≠ [45#8, 100#8] → main rnd pow (t :: u :: more) = .brightness (lux rnd pow v x)) ∧ main rnd pow ([45#8, 100#8] :: t :: u :: more) = .brightness (lux rnd pow v x) := by
  obtain ⟨t1, t2⟩ := (strtoull_operand t v).2 ht
  obtain ⟨u1, u2⟩ := (strtoull_operand u x).2 hu
  constructor
  · intro hd
    simp [main, hd, t1, t2, u1, u2, Nat.mod_eq_of_lt hv, Nat.mod_eq_of_lt hx]
  · simp [main, t1, t2, u1, u2, Nat.mod_eq_of_lt hv, Nat.mod_eq_of_lt hx]

/-- An operand that is no number is not taken for one. -/
theorem luxtool_invalid (t u : List Byte) (more : List (List Byte)) (hd : t ≠ [45#8, 100#8]) (h : (∀ v, ¬ Operand t v) ∨ ∀ v, ¬ Operand u v) :
    ∃ y, main rnd pow (t :: u :: more) = .invalid y ∧ (y = t ∨ y = u) ∧ ∀ v, ¬ Operand y v := by
  have key : ∀ y, (Number.strtoull y).2.1 ≠ [] → ∀ v, ¬ Operand y v := fun y g v o => g ((strtoull_operand y v).2 o).1
  by_cases g : (Number.strtoull t).2.1 = []
  · have g2 : (Number.strtoull u).2.1 ≠ [] := by
      intro e
      rcases h with h | h
      · exact h _ ((strtoull_operand t _).1 ⟨g, rfl⟩)
      · exact h _ ((strtoull_operand u _).1 ⟨e, rfl⟩)
    exact ⟨u, by simp [main, hd, g, g2], .inr rfl, key u g2⟩
  · exact ⟨t, by simp [main, hd, g], .inl rfl, key t g⟩

/-- With `-d` and one number the null pointer is passed to `strtoul(3)`. -/
theorem luxtool_null_counterexample : main rnd pow [[45#8, 100#8], [49#8]] = .undefined := by
  have : Number.strtoull [49#8] = (1, [], none) := by decide
  simp [main, this]

/-- Values that are too large are taken modulo 65536: `65536` is zero; `-1` is 65535; and an empty argument is zero. -/
theorem luxtool_range_counterexample :
    main rnd pow [[54#8, 53#8, 53#8, 51#8, 54#8], [45#8, 49#8]] = .brightness (lux rnd pow 0 65535) ∧ main rnd pow [[], []] = .brightness (lux rnd pow 0 0) := by
  have h1 : Number.strtoull [54#8, 53#8, 53#8, 51#8, 54#8] = (65536, [], none) := by decide
  have h2 : Number.strtoull [45#8, 49#8] = (2 ^ 64 - 1, [], none) := by decide
  have h3 : Number.strtoull [] = (0, [], none) := by decide
  constructor
  · simp [main, h1, h2]
  · simp [main, h3]

/-- The operand `12` has the value twelve. -/
example : Operand [49#8, 50#8] 12 := (strtoull_operand _ _).1 (by decide)

/-- Reading a device on the bus of the I2C feature. -/
example : ∃ t, Reads I2c.bus 3 0x39#8 registers ⟨fun _ => 0, fun _ => 0, fun _ r => r⟩ [0xcc#8, 0x8d#8, 0x8e#8, 0x8f#8] t :=
  ⟨_, .cons (rc := 1) rfl (by decide) (.cons (rc := 1) rfl (by decide) (.cons (rc := 1) rfl (by decide) (.cons (rc := 1) rfl (by decide) .nil)))⟩

end Diminuto.Luxtool
