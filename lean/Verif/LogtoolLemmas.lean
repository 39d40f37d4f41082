import Verif.LogtoolSpec

/-!
# Lemmas for the tool that logs its arguments or its standard input
-/

namespace Diminuto.Logtool

open Diminuto.Stdio (Stream gather Stop)

/-- The variables after the options. -/
def after (c : Config) (opts : List Option') : Config where
  mask := ((level opts).map fun n => Log.priority2mask n).getD c.mask
  priority := ((level opts).map Fin.val).getD c.priority
  unconditional := c.unconditional || opts.contains .unconditional
  suppress := c.suppress || opts.contains .suppress
  length := ((opts.filterMap fun | .size n => some n | _ => none).getLast?).getD c.length

theorem options_eq (opts : List Option') : ∀ c, options c opts = if .usage ∈ opts then none else some (after c opts) := by
  induction opts with
  | nil =>
    intro c
    rw [if_neg (by simp)]
    simp [options, after, level]
  | cons o opts ih =>
    intro c
    unfold options
    cases o with
    | usage => rw [if_pos (by simp)]; rfl
    | size n =>
      show options _ opts = _
      rw [ih]
      by_cases h : .usage ∈ opts
      · rw [if_pos h, if_pos (List.mem_cons_of_mem _ h)]
      · rw [if_neg h, if_neg (by simp [h])]
        simp [after, level, List.getLast?_cons]
    | suppress =>
      show options _ opts = _
      rw [ih]
      by_cases h : .usage ∈ opts
      · rw [if_pos h, if_pos (List.mem_cons_of_mem _ h)]
      · rw [if_neg h, if_neg (by simp [h])]
        simp [after, level]
    | unconditional =>
      show options _ opts = _
      rw [ih]
      by_cases h : .usage ∈ opts
      · rw [if_pos h, if_pos (List.mem_cons_of_mem _ h)]
      · rw [if_neg h, if_neg (by simp [h])]
        simp [after, level]
    | level n =>
      show options _ opts = _
      rw [ih]
      by_cases h : .usage ∈ opts
      · rw [if_pos h, if_pos (List.mem_cons_of_mem _ h)]
      · rw [if_neg h, if_neg (by simp [h])]
        simp only [after, level, List.filterMap_cons, List.getLast?_cons, List.contains_cons, show (Option'.unconditional == Option'.level n) = false from rfl, show (Option'.suppress == Option'.level n) = false from rfl, Bool.false_or]
        cases (opts.filterMap fun | .level n => some n | _ => none).getLast? <;> simp
    | other =>
      show options _ opts = _
      rw [ih]
      by_cases h : .usage ∈ opts
      · rw [if_pos h, if_pos (List.mem_cons_of_mem _ h)]
      · rw [if_neg h, if_neg (by simp [h])]
        simp [after, level]

theorem arguments_eq (c : Config) (args : List (List Byte)) : arguments c args = (messages args).map fun a => ⟨c.priority, a ++ [10#8]⟩ := by
  induction args with
  | nil => rfl
  | cons a args ih =>
    unfold arguments messages
    by_cases h : a = []
    · rw [if_pos h, ih, List.filter_cons_of_neg (by simp [h])]; rfl
    · rw [if_neg h, ih, List.filter_cons_of_pos (by simp [h])]; rfl

theorem bit_enabled (mask : BitVec 32) (n : Fin 8) : Log.enabled mask (Log.priority2mask n) = true ↔ Wanted mask n := by
  have key : ∀ k : Nat, k < 8 → ((mask &&& (1#32 <<< k)) ≠ 0#32 ↔ mask.toNat / 2 ^ k % 2 = 1) := by
    intro k hk
    have e : mask.toNat / 2 ^ k % 2 = 1 ↔ mask.getLsbD k = true := by
      rw [BitVec.getLsbD, Nat.testBit_eq_decide_div_mod_eq]; simp
    rw [e]
    constructor
    · intro h
      apply Classical.byContradiction
      intro hn
      apply h
      apply BitVec.eq_of_getLsbD_eq
      intro i hi
      rw [BitVec.getLsbD_and, BitVec.getLsbD_shiftLeft]
      by_cases hik : i = k
      · subst hik; simp [hn]
      · by_cases hlt : i < k
        · simp [hlt]
        · have : i - k ≠ 0 := by omega
          have hone : (1#32).getLsbD (i - k) = false := by
            rw [BitVec.getLsbD_one]; simp [this]
          rw [hone]; simp
    · intro h h0
      have := congrArg (fun x => BitVec.getLsbD x k) h0
      simp only [BitVec.getLsbD_and, BitVec.getLsbD_shiftLeft, h] at this
      have hone : (1#32).getLsbD (k - k) = true := by rw [Nat.sub_self]; rfl
      rw [hone] at this
      simp at this
      omega
  unfold Log.enabled Wanted
  have hd : decide (mask &&& Log.priority2mask n ≠ 0#32) = true ↔ (mask &&& Log.priority2mask n ≠ 0#32) := by simp
  rw [hd]
  match n with
  | 0 => exact key 7 (by decide)
  | 1 => exact key 6 (by decide)
  | 2 => exact key 5 (by decide)
  | 3 => exact key 4 (by decide)
  | 4 => exact key 3 (by decide)
  | 5 => exact key 2 (by decide)
  | 6 => exact key 1 (by decide)
  | 7 => exact key 0 (by decide)

theorem default_enabled (mask : BitVec 32) : Log.enabled mask Log.DEFAULT = true ↔ ∃ n : Fin 8, n.val ≤ 5 ∧ Wanted mask n := by
  constructor
  · intro h
    apply Classical.byContradiction
    intro hn
    have hz : ∀ n : Fin 8, n.val ≤ 5 → mask &&& Log.priority2mask n = 0#32 := by
      intro n hle
      apply Classical.byContradiction
      intro h0
      exact hn ⟨n, hle, (bit_enabled mask n).mp (by unfold Log.enabled; simp [h0])⟩
    have e : Log.DEFAULT = Log.priority2mask 0 ||| Log.priority2mask 1 ||| Log.priority2mask 2 ||| Log.priority2mask 3 ||| Log.priority2mask 4 ||| Log.priority2mask 5 := by decide
    have : mask &&& Log.DEFAULT = 0#32 := by
      rw [e]
      simp only [BitVec.and_or_distrib_left]
      have h0 : mask &&& Log.priority2mask 0 = 0#32 := hz 0 (by decide)
      have h1 : mask &&& Log.priority2mask 1 = 0#32 := hz 1 (by decide)
      have h2 : mask &&& Log.priority2mask 2 = 0#32 := hz 2 (by decide)
      have h3 : mask &&& Log.priority2mask 3 = 0#32 := hz 3 (by decide)
      have h4 : mask &&& Log.priority2mask 4 = 0#32 := hz 4 (by decide)
      have h5 : mask &&& Log.priority2mask 5 = 0#32 := hz 5 (by decide)
      rw [h0, h1, h2, h3, h4, h5]
      decide
    unfold Log.enabled at h
    rw [this] at h
    simp at h
  · rintro ⟨n, hle, hw⟩
    have h := (bit_enabled mask n).mpr hw
    unfold Log.enabled at h ⊢
    have h : mask &&& Log.priority2mask n ≠ 0#32 := by simpa using h
    have e : Log.DEFAULT &&& Log.priority2mask n = Log.priority2mask n := by
      match n, hle with
      | 0, _ => decide
      | 1, _ => decide
      | 2, _ => decide
      | 3, _ => decide
      | 4, _ => decide
      | 5, _ => decide
    have : mask &&& Log.DEFAULT ≠ 0#32 := by
      intro h0
      apply h
      rw [← e, ← BitVec.and_assoc, h0]
      simp
    simpa using this

theorem enabled_after (mask : BitVec 32) (opts : List Option') : enabled (after initial opts) mask = true ↔ Logs mask opts := by
  unfold enabled Logs after
  cases hl : level opts with
  | none =>
    simp only [initial, Bool.false_or, Bool.or_eq_true]
    exact or_congr (by simp) (default_enabled mask)
  | some n =>
    simp only [initial, Bool.false_or, Bool.or_eq_true]
    exact or_congr (by simp) (bit_enabled mask n)

theorem priority_after (opts : List Option') : (after initial opts).priority = priority opts := by
  unfold after priority
  cases level opts <;> rfl

theorem main_eq (mask : BitVec 32) (opts : List Option') (hu : .usage ∉ opts) (args : List (List Byte)) (memory : Bool) (stdin : List (Option Byte)) (turns : Nat) :
    main mask opts args memory stdin turns =
      let log := if enabled (after initial opts) mask then (messages args).map fun a => (⟨priority opts, a ++ [10#8]⟩ : Message) else []
      if .suppress ∈ opts then .exit 0 log false
      else if log.length > 0 then .exit 0 log false
      else if !memory then .exit 1 log false
      else lines (after initial opts) mask turns ⟨stdin, false, false⟩ log := by
  unfold main
  rw [options_eq, if_neg hu]
  simp only [arguments_eq, priority_after]
  have : (after initial opts).suppress = decide (.suppress ∈ opts) := by simp [after, initial]
  rw [this]
  simp only [decide_eq_true_eq]

/-- A piece of what is read. -/
theorem gather_piece (n : Nat) : ∀ bs : List Byte, bs ≠ [] → ∃ l rest stop, bs = l ++ rest ∧ gather true (n + 1) (bs.map some) = (l, stop, rest.map some) ∧ l ≠ [] ∧ 10#8 ∉ l.dropLast ∧ l.length ≤ n + 1 ∧
    (l.getLast? = some 10#8 ∨ l.length = n + 1 ∨ rest = []) ∧ stop ≠ .error ∧ (stop = .eof → rest = []) := by
  induction n with
  | zero =>
    intro bs h
    match bs, h with
    | b :: bs, _ =>
      refine ⟨[b], bs, .full, rfl, ?_, by simp, by simp, by simp, Or.inr (Or.inl rfl), nofun, nofun⟩
      show gather true 1 (some b :: bs.map some) = _
      unfold gather
      split
      · rfl
      · unfold gather; rfl
  | succ n ih =>
    intro bs h
    match bs, h with
    | b :: bs, _ =>
      by_cases hb : b = 10#8
      · subst hb
        refine ⟨[10#8], bs, .full, rfl, ?_, by simp, by simp, by simp, Or.inl rfl, nofun, nofun⟩
        show gather true (n + 2) (some 10#8 :: bs.map some) = _
        unfold gather
        rfl
      · by_cases hbs : bs = []
        · subst hbs
          refine ⟨[b], [], .eof, rfl, ?_, by simp, by simp, by simp, Or.inr (Or.inr rfl), nofun, fun _ => rfl⟩
          show gather true (n + 2) [some b] = _
          unfold gather
          rw [if_neg (by simp [hb])]
          unfold gather
          rfl
        · obtain ⟨l, rest, stop, h1, h2, h3, h4, h5, h6, h7, h8⟩ := ih bs hbs
          refine ⟨b :: l, rest, stop, by rw [h1]; rfl, ?_, by simp, ?_, by simp; omega, ?_, h7, h8⟩
          · show gather true (n + 2) (some b :: bs.map some) = _
            unfold gather
            rw [if_neg (by simp [hb]), h2]
          · rw [List.dropLast_cons_of_ne_nil h3, List.mem_cons]
            rintro (h | h)
            · exact hb h.symm
            · exact h4 h
          · rcases h6 with h6 | h6 | h6
            · left
              rw [List.getLast?_cons, h6]; rfl
            · right; left; simp [h6]
            · exact Or.inr (Or.inr h6)

theorem lines_pieces (c : Config) (mask : BitVec 32) (h2 : 2 ≤ c.length.toNat) (h31 : c.length.toNat < 2 ^ 31) (turns : Nat) : ∀ (bs : List Byte) (s : Stream) (log : List Message), s.items = bs.map some → (s.eof = true → bs = []) →
    s.error = false → bs.length < turns → ∃ ps, Pieces (c.length.toNat - 1) bs ps ∧
      lines c mask turns s log = .exit 0 (log ++ if enabled c mask then ps.map fun p => ⟨c.priority, Stdio.text p⟩ else []) true := by
  have hint : Stdio.int c.length = c.length.toNat := by
    have e : (c.length.truncate 32).toNat = c.length.toNat := by rw [BitVec.truncate_eq_setWidth, BitVec.toNat_setWidth]; omega
    unfold Stdio.int
    rw [BitVec.toInt_eq_toNat_of_lt (by rw [e]; omega), e]
  induction turns with
  | zero => intro bs s log _ _ _ h; omega
  | succ turns ih =>
    intro bs s log hi he herr ht
    unfold lines Stdio.fgets
    rw [hint, if_neg (by omega), if_neg (by omega)]
    by_cases hb : bs = []
    · subst hb
      refine ⟨[], .done, ?_⟩
      by_cases hs : s.eof = true
      · rw [if_pos hs]
        show Outcome.exit 0 log s.eof = _
        rw [hs]; simp
      · rw [if_neg hs]
        have e : gather true ((c.length.toNat : Int).toNat - 1) s.items = ([], .eof, []) := by
          rw [hi]
          obtain ⟨k, hk⟩ : ∃ k, (c.length.toNat : Int).toNat - 1 = k + 1 := ⟨c.length.toNat - 2, by omega⟩
          rw [hk]
          rfl
        rw [e]
        show Outcome.exit 0 log (s.eof || true) = _
        simp
    · have hs : ¬ s.eof = true := fun h => hb (he h)
      rw [if_neg hs]
      obtain ⟨k, hk⟩ : ∃ k, (c.length.toNat : Int).toNat - 1 = k + 1 := ⟨c.length.toNat - 2, by omega⟩
      have hk' : c.length.toNat - 1 = k + 1 := by omega
      obtain ⟨l, rest, stop, g1, g2, g3, g4, g5, g6, g7, g8⟩ := gather_piece k bs hb
      rw [hk, hi, g2]
      simp only []
      rw [if_neg (by simp [g3, g7])]
      have hlen : rest.length < turns := by
        have : bs.length = l.length + rest.length := by rw [g1, List.length_append]
        have : 0 < l.length := List.length_pos_iff.mpr g3
        omega
      obtain ⟨ps, p1, p2⟩ := ih rest (s.after stop (rest.map some)) (if enabled c mask then log ++ [⟨c.priority, Stdio.text l⟩] else log) rfl (by
        intro h
        have h : (s.eof || decide (stop = .eof)) = true := h
        simp [hs] at h
        exact g8 h) (by
        show (s.error || decide (stop = .error)) = false
        simp [herr, g7]) hlen
      refine ⟨l :: ps, ?_, ?_⟩
      · rw [g1]
        exact .piece l rest ps g3 g4 (by omega) (by rw [hk']; exact g6) p1
      · show lines c mask turns (s.after stop (rest.map some)) (if enabled c mask then log ++ [⟨c.priority, Stdio.text l⟩] else log) = _
        rw [p2]
        cases enabled c mask <;> simp

/-- The pieces are determined. -/
theorem pieces_unique {room : Nat} {bs : List Byte} {ps : List (List Byte)} (h : Pieces room bs ps) : ∀ qs, Pieces room bs qs → ps = qs := by
  -- of two ways to begin one is the beginning of the other
  have key : ∀ (l rest l' rest' : List Byte), l ++ rest = l' ++ rest' → l ≠ [] → l.length < l'.length → 10#8 ∉ l'.dropLast → l'.length ≤ room → (l.getLast? = some 10#8 ∨ l.length = room ∨ rest = []) → False := by
    intro l rest l' rest' e hl hlt hin hr hend
    have hpre : l <+: l' := List.prefix_of_prefix_length_le ⟨rest, e⟩ ⟨rest', rfl⟩ (by omega)
    obtain ⟨t, ht⟩ := hpre
    have htne : t ≠ [] := by
      rintro rfl
      rw [List.append_nil] at ht
      rw [ht] at hlt
      omega
    rcases hend with h | h | h
    · apply hin
      rw [← ht, List.dropLast_append_of_ne_nil htne]
      exact List.mem_append_left _ (List.mem_of_getLast? h)
    · omega
    · subst h
      rw [List.append_nil] at e
      have : l.length = (l' ++ rest').length := by rw [← e]
      rw [List.length_append] at this
      omega
  induction h with
  | done =>
    intro qs hq
    generalize hb : ([] : List Byte) = bs at hq
    cases hq with
    | done => rfl
    | piece l rest ps h1 h2 h3 h4 h5 => exact absurd (List.append_eq_nil_iff.mp hb.symm).1 h1
  | piece l rest ps h1 h2 h3 h4 h5 ih =>
    intro qs hq
    generalize hb : l ++ rest = bs at hq
    cases hq with
    | done => exact absurd (List.append_eq_nil_iff.mp hb).1 h1
    | piece l' rest' ps' g1 g2 g3 g4 g5 =>
      have hlen : l.length = l'.length := by
        rcases Nat.lt_trichotomy l.length l'.length with h | h | h
        · exact (key l rest l' rest' hb h1 h g2 g3 h4).elim
        · exact h
        · exact (key l' rest' l rest hb.symm g1 h h2 h3 g4).elim
      obtain ⟨rfl, rfl⟩ := List.append_inj hb hlen
      rw [ih _ g5]

theorem takeWhile_self (l : List Byte) (h : 0#8 ∉ l) : l.takeWhile (· ≠ 0) = l := by
  induction l with
  | nil => rfl
  | cons b l ih =>
    rw [List.mem_cons] at h
    rw [List.takeWhile_cons_of_pos (by simpa using fun h0 : b = 0#8 => h (Or.inl h0.symm)), ih fun h' => h (Or.inr h')]

/-- Lines that fit are the pieces. -/
theorem lines_are_pieces {room : Nat} {ls : List (List Byte)} (h : Lines ls) : (∀ l ∈ ls, l.length ≤ room) → Pieces room ls.flatten ls := by
  induction h with
  | done => intro _; exact .done
  | last l h1 h2 =>
    intro hr
    have := Pieces.piece (room := room) l [] [] h1 (fun h => h2 (List.dropLast_subset _ h)) (hr l (by simp)) (Or.inr (Or.inr rfl)) .done
    simpa using this
  | line l ls h1 h2 ih =>
    intro hr
    exact .piece (l ++ [10#8]) ls.flatten ls (by simp) (by simpa using h1) (hr _ (by simp)) (Or.inl (by simp)) (ih fun x hx => hr x (by simp [hx]))

end Diminuto.Logtool
