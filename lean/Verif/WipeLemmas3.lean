import Verif.WipeLemmas2

/-!
# More lemmas for the tool that wipes a storage device: it ends
-/

namespace Diminuto.Wipe

variable {σ : Type} {d : Device σ} {contents : σ → List Byte} {position : σ → Nat}

/-- The state of the device while it is being written: what is before the position is the pattern. -/
structure Upto (contents : σ → List Byte) (position : σ → Nat) (little : Bool) (seed : BitVec 64) (capacity : Nat) (s : σ) : Prop where
  length : (contents s).length = capacity
  inside : position s ≤ capacity
  pattern : From little seed 0 ((contents s).take (position s))

/-- Writing a block: either all of it is written, or the device is full. -/
theorem writeBlock_spec (hw : Writable d contents position) (little : Bool) (seed : BitVec 64) (capacity sector modulo : Nat) (hs : 0 < sector) (hm : modulo ≠ 0) (errors : Nat) (turns : Nat) :
    ∀ (s : σ) (pointer : List Byte) (size total : Nat) (rc : Sign), size ≤ turns → size ≤ pointer.length → Upto contents position little seed capacity s →
    From little seed (position s) pointer → (Short d contents position ∨ (Whole d ∧ sector ∣ size ∧ sector ∣ capacity - position s)) →
    ∃ w, writeBlock d sector modulo turns s pointer size total errors rc = .done w ∧ w.errors = errors ∧ Upto contents position little seed capacity w.device ∧
      w.total + position s = total + position w.device ∧
      (size = 0 → w.rc = rc ∧ position w.device = position s) ∧
      (0 < size → (w.rc = .positive ∧ position s < position w.device ∧ (position w.device = position s + size ∨ position w.device = capacity)) ∨ (w.rc = .negative ∧ position w.device = capacity)) := by
  have base : ∀ (turns : Nat) (s : σ) (pointer : List Byte) (total : Nat) (rc : Sign), writeBlock d sector modulo turns s pointer 0 total errors rc = .done ⟨rc, s, total, errors⟩ := by
    intro t s b tt rc; cases t <;> rfl
  induction turns with
  | zero =>
    intro s pointer size total rc h1 h2 hu hf hp
    have : size = 0 := by omega
    subst this
    exact ⟨_, base _ _ _ _ _, rfl, hu, rfl, fun _ => ⟨rfl, rfl⟩, fun h => absurd h (by omega)⟩
  | succ turns ih =>
    intro s pointer size total rc h1 h2 hu hf hp
    cases size with
    | zero => exact ⟨_, base _ _ _ _ _, rfl, hu, rfl, fun _ => ⟨rfl, rfl⟩, fun h => absurd h (by omega)⟩
    | succ m =>
      have hlen : (pointer.take (m + 1)).length = m + 1 := by rw [List.length_take]; omega
      have hne : pointer.take (m + 1) ≠ [] := by intro h; rw [h] at hlen; simp at hlen
      unfold writeBlock
      simp only []
      rcases hwr : d.write s (pointer.take (m + 1)) with ⟨r, s'⟩
      cases r with
      | failed => exact absurd hwr (hw.failed _ _ _)
      | bytes n =>
        obtain ⟨w1, w2, w3, w4, w5⟩ := hw.bytes _ _ _ _ hwr
        have w2 := w2 hne
        rw [hlen] at w1
        have ht : (contents s').take (position s') = (contents s).take (position s) ++ (pointer.take (m + 1)).take n := by
          rw [w5, w4]
          have hl1 : ((contents s).take (position s)).length = position s := by rw [List.length_take]; omega
          rw [List.take_append, hl1, List.take_of_length_le (by omega)]
          congr 1
          rw [show position s + n - position s = n by omega, List.take_append_of_le_length (by rw [List.length_take, hlen]; omega), List.take_take]
          congr 1; omega
        have hu' : Upto contents position little seed capacity s' := by
          refine ⟨?_, ?_, ?_⟩
          · have hh := hu.length
            rw [w5, List.length_append, List.length_append, List.length_take, List.length_take, List.length_drop, hlen]
            omega
          · have hh := hu.length
            omega
          · rw [ht]
            apply from_append hu.pattern
            have hl1 : ((contents s).take (position s)).length = position s := by rw [List.length_take]; omega
            rw [hl1, Nat.zero_add]
            exact from_take _ (from_take _ hf)
        have hf' : From little seed (position s') (pointer.drop n) := by rw [w4]; exact from_drop n hf
        have hp' : Short d contents position ∨ (Whole d ∧ sector ∣ (m + 1 - n) ∧ sector ∣ capacity - position s') := by
          rcases hp with hp | ⟨p1, p2, p3⟩
          · exact Or.inl hp
          · have hn := p1 _ _ _ _ hwr
            rw [hlen] at hn
            subst hn
            refine Or.inr ⟨p1, by rw [Nat.sub_self]; exact Nat.dvd_zero _, ?_⟩
            rw [w4, Nat.sub_add_eq]
            exact Nat.dvd_sub p3 p2
        obtain ⟨w, i1, i2, i3, i4, i5, i6⟩ := ih s' (pointer.drop n) (m + 1 - n) (total + n) .positive (by omega) (by rw [List.length_drop]; omega) hu' hf' hp'
        refine ⟨w, ?_, i2, i3, by omega, fun h => absurd h (by omega), fun _ => ?_⟩
        · cases n with
          | zero => omega
          | succ n =>
            simp only []
            rw [if_neg (by omega), if_neg hm]
            exact i1
        · by_cases hz : m + 1 - n = 0
          · obtain ⟨j1, j2⟩ := i5 hz
            exact Or.inl ⟨j1, by omega, Or.inl (by omega)⟩
          · rcases i6 (by omega) with ⟨j1, j2, j3⟩ | ⟨j1, j2⟩
            · exact Or.inl ⟨j1, by omega, by rcases j3 with j3 | j3 <;> omega⟩
            · exact Or.inr ⟨j1, j2⟩
      | nospace =>
        obtain ⟨w1, w2, w3⟩ := hw.nospace _ _ _ hwr
        rw [hlen, hu.length] at w3
        have hu' : Upto contents position little seed capacity s' := ⟨by rw [w1]; exact hu.length, by rw [w2]; exact hu.inside, by rw [w1, w2]; exact hu.pattern⟩
        have hin := hu.inside
        have hfull : Short d contents position → position s = capacity := by
          intro h
          have := h _ _ _ hwr
          have := hu.length
          omega
        by_cases hz : sector < m + 1
        · simp only []
          rw [if_pos hz]
          have hp' : Short d contents position ∨ (Whole d ∧ sector ∣ (m + 1 - sector) ∧ sector ∣ capacity - position s') := by
            rcases hp with hp | ⟨p1, p2, p3⟩
            · exact Or.inl hp
            · exact Or.inr ⟨p1, Nat.dvd_sub p2 (Nat.dvd_refl _), by rw [w2]; exact p3⟩
          obtain ⟨w, i1, i2, i3, i4, i5, i6⟩ := ih s' pointer (m + 1 - sector) total .negative (by omega) (by omega) hu' (by rw [w2]; exact hf) hp'
          refine ⟨w, i1, i2, i3, by rw [w2] at i4; exact i4, fun h => absurd h (by omega), fun _ => ?_⟩
          have hin' := i3.inside
          rcases i6 (by omega) with ⟨j1, j2, j3⟩ | ⟨j1, j2⟩
          · rw [w2] at j2 j3
            refine Or.inl ⟨j1, j2, Or.inr ?_⟩
            rcases j3 with j3 | j3
            · rcases hp with hp | ⟨p1, p2, p3⟩
              · have := hfull hp; omega
              · obtain ⟨x, hx⟩ := p2
                obtain ⟨y, hy⟩ := p3
                have hlt : sector * y < sector * x := by omega
                have hxy : y < x := Nat.lt_of_mul_lt_mul_left hlt
                have : sector * (y + 1) ≤ sector * x := Nat.mul_le_mul_left _ hxy
                rw [Nat.mul_add, Nat.mul_one] at this
                omega
            · exact j3
          · exact Or.inr ⟨j1, j2⟩
        · simp only []
          rw [if_neg hz]
          refine ⟨_, rfl, rfl, hu', by simp only [w2], fun h => absurd h (by omega), fun _ => Or.inr ⟨rfl, ?_⟩⟩
          simp only [w2]
          rcases hp with hp | ⟨p1, p2, p3⟩
          · exact hfull hp
          · obtain ⟨y, hy⟩ := p3
            obtain ⟨x, hx⟩ := p2
            have hx1 : x = 1 := by
              rcases x with _ | _ | x
              · omega
              · rfl
              · have : sector * (x + 1 + 1) = sector * x + sector + sector := by rw [Nat.mul_add, Nat.mul_add]; omega
                omega
            subst hx1
            have : sector * y < sector * 1 := by omega
            have := Nat.lt_of_mul_lt_mul_left this
            have : y = 0 := by omega
            subst this
            omega

/-- Writing everything: it ends, and the device is full of the pattern. -/
theorem writeAll_spec (hw : Writable d contents position) (little : Bool) (seed : BitVec 64) (capacity block sector modulo : Nat) (hb : 0 < block) (h8 : 8 ∣ block) (hs : 0 < sector)
    (hsb : sector ∣ block) (hm : modulo ≠ 0) (hpol : Short d contents position ∨ (Whole d ∧ sector ∣ capacity)) (errors : Nat) (turns : Nat) :
    ∀ (s : σ) (datum : BitVec 64) (total : Nat), capacity - position s < turns → Upto contents position little seed capacity s → total = position s →
      (position s = capacity ∨ (8 ∣ position s ∧ datum.toNat = word seed (position s / 8) ∧ (Short d contents position ∨ sector ∣ position s))) →
    ∃ w, writeAll d little block sector modulo turns s datum total errors = .done w ∧ w.errors = errors ∧ Upto contents position little seed capacity w.device ∧
      position w.device = capacity ∧ w.total = capacity := by
  induction turns with
  | zero => intro s datum total h; omega
  | succ turns ih =>
    intro s datum total ht hu htot hal
    obtain ⟨f1, f2⟩ : (fill little (block / 8) datum).1.length = 8 * (block / 8) ∧ True := by
      refine ⟨?_, trivial⟩
      exact (fill_spec little datum (block / 8) 0 datum rfl).2.1
    have hin := hu.inside
    by_cases hfull : position s = capacity
    · -- The device is full: every pattern will do, for nothing of it is written.
      have key : ∀ (t : Nat) (s : σ) (pointer : List Byte) (size : Nat) (rc : Sign), size ≤ t → size ≤ pointer.length → 0 < size → (contents s).length = capacity → position s = capacity →
          Upto contents position little seed capacity s →
          ∃ w, writeBlock d sector modulo t s pointer size total errors rc = .done w ∧ w.errors = errors ∧ w.rc = .negative ∧ w.total = total ∧ Upto contents position little seed capacity w.device ∧
            position w.device = capacity := by
        intro t
        induction t with
        | zero => intro s pointer size rc h1 h2 h3; omega
        | succ t iht =>
          intro s pointer size rc h1 h2 h3 h4 h5 hu
          cases size with
          | zero => omega
          | succ m =>
            have hlen : (pointer.take (m + 1)).length = m + 1 := by rw [List.length_take]; omega
            have hne : pointer.take (m + 1) ≠ [] := by intro h; rw [h] at hlen; simp at hlen
            unfold writeBlock
            simp only []
            rcases hwr : d.write s (pointer.take (m + 1)) with ⟨r, s'⟩
            cases r with
            | failed => exact absurd hwr (hw.failed _ _ _)
            | bytes n =>
              obtain ⟨-, w2, w3, -, -⟩ := hw.bytes _ _ _ _ hwr
              have := w2 hne
              omega
            | nospace =>
              obtain ⟨w1, w2, -⟩ := hw.nospace _ _ _ hwr
              have hu' : Upto contents position little seed capacity s' := ⟨by rw [w1]; exact hu.length, by rw [w2]; exact hu.inside, by rw [w1, w2]; exact hu.pattern⟩
              by_cases hz : sector < m + 1
              · simp only []
                rw [if_pos hz]
                exact iht s' pointer (m + 1 - sector) .negative (by omega) (by omega) (by omega) (by rw [w1]; exact h4) (by rw [w2]; exact h5) hu'
              · simp only []
                rw [if_neg hz]
                exact ⟨_, rfl, rfl, rfl, rfl, hu', by rw [← h5]; exact w2⟩
      obtain ⟨w, k1, k2, k3, k4, k5, k6⟩ := key block s (fill little (block / 8) datum).1 block .positive (Nat.le_refl _) (by omega) hb hu.length hfull hu
      refine ⟨w, ?_, k2, k5, k6, by omega⟩
      unfold writeAll
      simp only []
      rw [k1]
      simp only []
      rw [if_neg (by rw [k3]; decide)]
    · rcases hal with hal | ⟨a1, a2, a3⟩
      · exact absurd hal hfull
      · obtain ⟨g1, g2, g3⟩ := fill_spec little seed (block / 8) (position s / 8) datum a2
        rw [show 8 * (position s / 8) = position s by omega] at g1
        have hp : Short d contents position ∨ (Whole d ∧ sector ∣ block ∧ sector ∣ capacity - position s) := by
          rcases hpol with h | ⟨p1, p2⟩
          · exact Or.inl h
          · rcases a3 with a3 | a3
            · exact Or.inl a3
            · exact Or.inr ⟨p1, hsb, Nat.dvd_sub p2 a3⟩
        obtain ⟨w, i1, i2, i3, i4, -, i6⟩ := writeBlock_spec hw little seed capacity sector modulo hs hm errors block s (fill little (block / 8) datum).1 block total .positive
          (Nat.le_refl _) (by omega) hu g1 hp
        rcases i6 hb with ⟨j1, j2, j3⟩ | ⟨j1, j2⟩
        · have hcont : position w.device = capacity ∨ (8 ∣ position w.device ∧ (fill little (block / 8) datum).2.toNat = word seed (position w.device / 8) ∧
              (Short d contents position ∨ sector ∣ position w.device)) := by
            rcases j3 with j3 | j3
            · right
              refine ⟨by rw [j3]; exact Nat.dvd_add a1 h8, by rw [g3, j3]; congr 1; omega, ?_⟩
              rcases a3 with a3 | a3
              · exact Or.inl a3
              · exact Or.inr (by rw [j3]; exact Nat.dvd_add a3 hsb)
            · exact Or.inl j3
          have hin' := i3.inside
          obtain ⟨w', k1, k2, k3, k4, k5⟩ := ih w.device (fill little (block / 8) datum).2 w.total (by omega) i3 (by omega) hcont
          refine ⟨w', ?_, k2, k3, k4, k5⟩
          unfold writeAll
          simp only []
          rw [i1]
          simp only []
          rw [if_pos j1, i2]
          exact k1
        · refine ⟨w, ?_, i2, i3, j2, by omega⟩
          unfold writeAll
          simp only []
          rw [i1]
          simp only []
          rw [if_neg (by rw [j1]; decide)]

/-- Reading a block without a failure ends. -/
theorem readBlock_ends (hr : Readable d contents position) (hn : ∀ s n s', d.read s n ≠ (none, s')) (modulo : Nat) (hm : modulo ≠ 0) (errors : Nat) (turns : Nat) :
    ∀ (s : σ) (buffer : List Byte) (size : Nat) (rc : Sign), size ≤ turns → ∃ g, readBlock d modulo turns s buffer size errors rc = .done g ∧ g.errors = errors := by
  induction turns with
  | zero =>
    intro s buffer size rc h
    have : size = 0 := by omega
    subst this
    exact ⟨_, rfl, rfl⟩
  | succ turns ih =>
    intro s buffer size rc h
    cases size with
    | zero => exact ⟨_, rfl, rfl⟩
    | succ m =>
      unfold readBlock
      simp only []
      rcases hg : d.read s (m + 1) with ⟨_ | l, s'⟩
      · exact absurd hg (hn _ _ _)
      · rcases l with _ | ⟨a, l⟩
        · exact ⟨_, rfl, rfl⟩
        · obtain ⟨-, -, h3, -⟩ := hr.data _ _ _ _ hg
          simp only []
          rw [if_neg (by omega), if_neg hm]
          exact ih _ _ _ _ (by simp only [List.length_cons] at *; omega)

/-- Reading everything ends, and if the contents are the pattern, without an error. -/
theorem readAll_ends (hr : Readable d contents position) (hn : ∀ s n s', d.read s n ≠ (none, s')) (little : Bool) (seed : BitVec 64) (block modulo : Nat) (hb : 0 < block) (h8 : 8 ∣ block)
    (hm : modulo ≠ 0) (errors : Nat) (turns : Nat) : ∀ (s : σ) (datum : BitVec 64) (total : Nat) (reported : List Nat), (contents s).length - total < turns → position s = total →
    8 ∣ total → total ≤ (contents s).length → datum.toNat = word seed (total / 8) → From little seed 0 (contents s) →
    ∃ c, readAll d little block modulo turns s datum total errors reported = .done c ∧ c.errors = errors ∧ c.total = (contents s).length ∧ c.reported = reported ∧ contents c.device = contents s := by
  induction turns with
  | zero => intro s datum total reported h; omega
  | succ turns ih =>
    intro s datum total reported ht hp h8t hle hd hf
    obtain ⟨g, hg, he⟩ := readBlock_ends hr hn modulo hm errors block s [] block .positive (Nat.le_refl _)
    obtain ⟨g1, g2⟩ := readBlock_spec hr modulo total g errors block s [] block .positive hg rfl (by rw [hp]; rfl) (by simp)
    rcases g2 with ⟨g2, -⟩ | ⟨-, g3, g4, g5⟩
    · omega
    · have hlen : total + g.buffer.length ≤ (contents s).length := by
        have := congrArg List.length g4
        rw [List.length_take, List.length_drop] at this
        omega
      unfold readAll
      simp only []
      rw [hg]
      simp only []
      by_cases h0 : g.buffer.length = 0
      · rw [if_pos h0]
        refine ⟨_, rfl, he, ?_, rfl, g1⟩
        rcases g5 with ⟨-, g6⟩ | ⟨-, g6⟩
        · simp only [List.length_nil] at g6; omega
        · show total = _
          omega
      · rw [if_neg h0]
        obtain ⟨v1, v2⟩ := verify_spec little seed (total + g.buffer.length) g.buffer.length (g.buffer.length / 8) (total / 8) g.buffer datum hd (by omega)
        have hnil : (verify little (total + g.buffer.length) g.buffer.length (g.buffer.length / 8) g.buffer datum).1 = [] := by
          rw [v1, show 8 * (total / 8) = total by omega]
          apply from_take
          rw [g4]
          apply from_take
          have := from_drop total hf
          rwa [Nat.zero_add] at this
        rcases hv : verify little (total + g.buffer.length) g.buffer.length (g.buffer.length / 8) g.buffer datum with ⟨more, datum'⟩
        rw [hv] at hnil v2
        simp only [] at hnil v2
        subst hnil
        simp only []
        by_cases hpos : g.rc = .positive
        · rw [if_pos hpos]
          rcases g5 with ⟨-, g6⟩ | ⟨g5, -⟩
          · simp only [List.length_nil, Nat.zero_add] at g6
            obtain ⟨c, c1, c2, c3, c4, c5⟩ := ih g.device datum' (total + g.buffer.length) reported (by rw [g1]; omega) g3 (Nat.dvd_add h8t (by rw [g6]; exact h8)) (by rw [g1]; exact hlen)
              (by rw [v2]; congr 1; omega) (by rw [g1]; exact hf)
            refine ⟨c, ?_, c2, by rw [c3, g1], c4, c5.trans g1⟩
            rw [List.append_nil, he]
            exact c1
          · rw [g5] at hpos; cases hpos
        · rw [if_neg hpos]
          refine ⟨_, rfl, ?_, ?_, ?_, g1⟩
          · simp only [List.length_nil]; omega
          · rcases g5 with ⟨g5, -⟩ | ⟨-, g6⟩
            · exact absurd g5 hpos
            · simp only []; omega
          · simp

end Diminuto.Wipe
