import Verif.MetertoolSpec
import Verif.MeterLemmas
import Verif.ShaperToolLemmas

/-!
# Lemmas for the tool that measures what goes through it
-/

namespace Diminuto.Metertool

open Diminuto.Fd (Source Sink)
open Diminuto.ShaperTool (content Willing)

/-- What is true of the measurements, of the buffer and of the signals. -/
structure Fine (w : World) (verbose : Bool) (block : BitVec 64) (input : List Source) (s : State) : Prop where
  willing : Willing s.output
  buffer : s.buffer.length = block.toNat
  errors : .error ∈ s.input → .error ∈ input
  sorted : Steady w → Meter.Sorted (w.clock 0) s.history ∧ ∃ i, i ≤ s.turns ∧ Meter.latest (w.clock 0) s.history = w.clock i
  meter : s.meter = (Meter.run w.rate (Meter.reset (w.clock 0)) s.history).1
  pending : ∀ g ∈ s.pending, ∃ i, g ∈ w.arrives i ∨ g ∈ w.interrupts i
  sizes : ∀ x ∈ s.history, x.2 ≠ 0#64 ∧ x.2.toNat ≤ block.toNat

/-- What is true between the turns. -/
structure Good (w : World) (verbose : Bool) (block : BitVec 64) (input : List Source) (s : State) : Prop extends Fine w verbose block input s where
  bytes : content input = s.out ++ content s.input
  total : Meter.total s.history = s.out.length
  reports : verbose = true → s.reports.length = s.history.length
  snapshots : ∀ m ∈ s.reports, ∃ h, h <+: s.history ∧ m = (Meter.run w.rate (Meter.reset (w.clock 0)) h).1

/-- What is true at the end of the loop. -/
structure Ended (w : World) (verbose : Bool) (block : BitVec 64) (input : List Source) (status : Nat) (s : State) : Prop extends Fine w verbose block input s where
  bytes : s.out <+: content input
  total : Meter.total s.history = s.out.length
  status : status = 0 ∧ (s.out = content input ∨ Told w) ∨ status = 3 ∧ .error ∈ input
  snapshots : ∀ m ∈ s.reports, ∃ h, h <+: s.history ∧ m = (Meter.run w.rate (Meter.reset (w.clock 0)) h).1

/-- What is true if the tool waits forever. -/
structure Stuck (w : World) (verbose : Bool) (block : BitVec 64) (input : List Source) (s : State) : Prop extends Fine w verbose block input s where
  bytes : s.out <+: content input
  total : s.out.length ≤ Meter.total s.history ∧ Meter.total s.history ≤ s.out.length + block.toNat

theorem read_errors (e : Source) (k : List Source) (mem : List Byte) (block : BitVec 64) (hb : 0 < block.toNat) (hm : block.toNat ≤ mem.length) (g : Fd.Got) (hg : Fd.readGeneric (e :: k) mem 1 block = .done g) :
    (.error ∈ g.kernel → .error ∈ e :: k) ∧ (g.ret < 0 → e = .error) := by
  unfold Fd.readGeneric Fd.readLoop at hg
  rw [if_pos hb] at hg
  simp only [] at hg
  cases e with
  | eof => cases hg; exact ⟨fun h => List.mem_cons_of_mem _ h, fun h => absurd h (show ¬ ((0 : Int) < 0) by decide)⟩
  | error => cases hg; exact ⟨fun h => List.mem_cons_of_mem _ h, fun _ => rfl⟩
  | data bs =>
    simp only [Fd.sysRead] at hg
    cases bs with
    | nil => cases hg; exact ⟨fun h => List.mem_cons_of_mem _ h, fun h => absurd h (show ¬ ((0 : Int) < 0) by decide)⟩
    | cons b bs =>
      rw [if_neg (by simp)] at hg
      by_cases hl : (b :: bs).length ≤ block.toNat
      · rw [if_pos hl] at hg
        simp only [Fd.store] at hg
        rw [if_pos (by omega)] at hg
        simp only [] at hg
        rw [if_pos (Or.inl (by have : (1 : BitVec 64).toInt = 1 := by decide
                               rw [this]; simp only [List.length_cons]; omega))] at hg
        cases hg
        refine ⟨fun h => List.mem_cons_of_mem _ h, fun h => absurd h ?_⟩
        show ¬ ((0 : Int) + ((b :: bs).length : Nat) < 0)
        omega
      · rw [if_neg hl] at hg
        simp only [Fd.store] at hg
        rw [if_pos (by rw [List.length_take]; omega)] at hg
        simp only [] at hg
        rw [if_pos (Or.inr (by rw [List.length_take]; omega))] at hg
        cases hg
        refine ⟨fun h => ?_, fun h => absurd h ?_⟩
        · have h : .error ∈ Source.data ((b :: bs).drop block.toNat) :: k := h
          rcases List.mem_cons.mp h with h | h
          · exact nomatch h
          · exact List.mem_cons_of_mem _ h
        · show ¬ ((0 : Int) + (((b :: bs).take block.toNat).length : Nat) < 0)
          omega

/-- What a turn ends with, in a state in which all is well. -/
def After (w : World) (verbose : Bool) (block : BitVec 64) (input : List Source) : Next → Prop
  | .again s => Good w verbose block input s
  | .stop status s => Ended w verbose block input status s
  | .never (.blocks s) => Stuck w verbose block input s
  | .never _ => False

theorem checks_after (w : World) (verbose : Bool) (block : BitVec 64) (input : List Source) (s : State) (h : Fine w verbose block input s) (hb : content input = s.out ++ content s.input)
    (ht : Meter.total s.history = s.out.length) (hr : verbose = true → s.reports.length + 1 = s.history.length) (hs : ∀ m ∈ s.reports, ∃ h, h <+: s.history ∧ m = (Meter.run w.rate (Meter.reset (w.clock 0)) h).1) :
    After w verbose block input (checks verbose s) := by
  have stop : ∀ g : Sig, g ∈ s.pending → g ≠ .hup → ∀ p : List Sig, (∀ x ∈ p, x ∈ s.pending) → After w verbose block input (.stop 0 { s with pending := p }) := by
    intro g hg hn p hp
    obtain ⟨i, hi⟩ := h.pending g hg
    exact { willing := h.willing, buffer := h.buffer, errors := h.errors, sorted := h.sorted, meter := h.meter, pending := fun x hx => h.pending x (hp x hx), sizes := h.sizes
            bytes := ⟨_, hb.symm⟩, total := ht, status := Or.inl ⟨rfl, Or.inr ⟨i, g, hi, hn⟩⟩, snapshots := hs }
  unfold checks
  by_cases h1 : .int ∈ s.pending
  · rw [if_pos h1]
    exact stop .int h1 (by decide) _ (fun x hx => (List.mem_filter.mp hx).1)
  · rw [if_neg h1]
    by_cases h2 : .term ∈ s.pending
    · rw [if_pos h2]
      exact stop .term h2 (by decide) _ (fun x hx => (List.mem_filter.mp hx).1)
    · rw [if_neg h2]
      by_cases h3 : .pipe ∈ s.pending
      · rw [if_pos h3]
        exact stop .pipe h3 (by decide) _ (fun x hx => (List.mem_filter.mp hx).1)
      · rw [if_neg h3]
        have hp : ∀ x ∈ s.pending.filter (· ≠ .hup), x ∈ s.pending := fun x hx => (List.mem_filter.mp hx).1
        simp only []
        by_cases hv : (decide (.hup ∈ s.pending) || verbose) = true
        · rw [if_pos hv]
          exact { willing := h.willing, buffer := h.buffer, errors := h.errors, sorted := h.sorted, meter := h.meter, pending := fun x hx => h.pending x (hp x hx), sizes := h.sizes
                  bytes := hb, total := ht
                  reports := fun hv' => by show (s.reports ++ [s.meter]).length = _; rw [List.length_append]; exact hr hv'
                  snapshots := fun m hm => by
                    rcases List.mem_append.mp hm with hm | hm
                    · exact hs m hm
                    · exact ⟨s.history, List.prefix_refl _, by rw [List.mem_singleton.mp hm]; exact h.meter⟩ }
        · rw [if_neg hv]
          exact { willing := h.willing, buffer := h.buffer, errors := h.errors, sorted := h.sorted, meter := h.meter, pending := fun x hx => h.pending x (hp x hx), sizes := h.sizes
                  bytes := hb, total := ht
                  reports := fun hv' => absurd (by rw [hv']; simp) hv
                  snapshots := hs }

theorem turn_after (w : World) (verbose : Bool) (block : BitVec 64) (h0 : 0 < block.toNat) (h63 : block.toNat < 2 ^ 63) (input : List Source) (s : State) (h : Good w verbose block input s) :
    After w verbose block input (turn w verbose block s) := by
  unfold turn
  simp only []
  have hsorted : Steady w → Meter.Sorted (w.clock 0) s.history ∧ ∃ i, i ≤ s.turns + 1 ∧ Meter.latest (w.clock 0) s.history = w.clock i := fun hw => by
    obtain ⟨a, i, b, c⟩ := h.sorted hw
    exact ⟨a, i, by omega, c⟩
  cases hin : s.input with
  | nil =>
    have e : Fd.readGeneric [] s.buffer 1 block = .blocks := by
      unfold Fd.readGeneric Fd.readLoop
      rw [if_pos h0]
    rw [e]
    exact { willing := h.willing, buffer := h.buffer, errors := (fun he => nomatch he), sorted := hsorted, meter := h.meter, pending := h.pending, sizes := h.sizes
            bytes := ⟨_, h.bytes.symm⟩, total := by show s.out.length ≤ Meter.total s.history ∧ _; have := h.total; exact ⟨by omega, by show Meter.total s.history ≤ s.out.length + _; omega⟩ }
  | cons e k =>
    obtain ⟨g, hg, hcase⟩ := ShaperTool.read_one e k s.buffer block h0 (by rw [h.buffer]; omega)
    obtain ⟨herr, hneg⟩ := read_errors e k s.buffer block h0 (by rw [h.buffer]; omega) g hg
    have herr' : .error ∈ g.kernel → .error ∈ input := fun x => h.errors (by rw [hin]; exact herr x)
    rw [hg]
    simp only []
    have hbytes := h.bytes
    rw [hin] at hbytes
    rcases hcase with ⟨h1, h2, h3⟩ | ⟨h1, h2, h3⟩ | ⟨bs, b1, b2, b3, b4, b5, b6⟩
    · rw [if_neg (by omega), if_pos h1]
      rw [h3, List.append_nil] at hbytes
      exact { willing := h.willing, buffer := by show g.mem.length = _; rw [h2]; exact h.buffer, errors := herr', sorted := hsorted, meter := h.meter, pending := h.pending, sizes := h.sizes
              bytes := ⟨[], by rw [List.append_nil]; exact hbytes.symm⟩, total := h.total, status := Or.inl ⟨rfl, Or.inl hbytes.symm⟩, snapshots := h.snapshots }
    · rw [if_neg (by omega), if_neg (by omega)]
      rw [h3] at hbytes
      by_cases hi : w.interrupts (s.turns + 1) ≠ []
      · rw [if_pos hi]
        exact { willing := h.willing, buffer := by show g.mem.length = _; rw [h2]; exact h.buffer, errors := herr', sorted := hsorted, meter := h.meter
                pending := fun x hx => by
                  rcases List.mem_append.mp hx with hx | hx
                  · exact h.pending x hx
                  · exact ⟨_, Or.inr hx⟩
                sizes := h.sizes, bytes := hbytes, total := h.total, reports := h.reports, snapshots := h.snapshots }
      · rw [if_neg hi]
        exact { willing := h.willing, buffer := by show g.mem.length = _; rw [h2]; exact h.buffer, errors := herr', sorted := hsorted, meter := h.meter, pending := h.pending, sizes := h.sizes
                bytes := ⟨_, hbytes.symm⟩, total := h.total
                status := Or.inr ⟨rfl, h.errors (by rw [hin, hneg (by omega)]; exact List.mem_cons_self ..)⟩, snapshots := h.snapshots }
    · have hpos : 0 < bs.length := List.length_pos_iff.mpr b1
      rw [if_pos (by omega)]
      have hsize : (BitVec.ofInt 64 g.ret).toNat = bs.length := by
        rw [b3, BitVec.ofInt_natCast, BitVec.toNat_ofNat]
        omega
      have hsz : ∀ x ∈ s.history ++ [(w.clock (s.turns + 1), BitVec.ofInt 64 g.ret)], x.2 ≠ 0#64 ∧ x.2.toNat ≤ block.toNat := by
        intro x hx
        rcases List.mem_append.mp hx with hx | hx
        · exact h.sizes x hx
        · rw [List.mem_singleton.mp hx]
          refine ⟨fun h0 => ?_, by rw [hsize]; exact b2⟩
          have := congrArg BitVec.toNat h0
          rw [hsize] at this
          simp at this
          exact b1 this
      have hsort' : Steady w → Meter.Sorted (w.clock 0) (s.history ++ [(w.clock (s.turns + 1), BitVec.ofInt 64 g.ret)]) ∧ ∃ i, i ≤ s.turns + 1 ∧ Meter.latest (w.clock 0) (s.history ++ [(w.clock (s.turns + 1), BitVec.ofInt 64 g.ret)]) = w.clock i := fun hw => by
        obtain ⟨a, i, b, c⟩ := h.sorted hw
        rw [Meter.sorted_append, Meter.latest_append, c]
        exact ⟨⟨a, hw i _ (by omega)⟩, _, Nat.le_refl _, rfl⟩
      have hmeter : (Meter.add w.rate s.meter (w.clock (s.turns + 1)) (BitVec.ofInt 64 g.ret)).1 = (Meter.run w.rate (Meter.reset (w.clock 0)) (s.history ++ [(w.clock (s.turns + 1), BitVec.ofInt 64 g.ret)])).1 := by
        rw [Meter.run_append, ← h.meter]
        rfl
      have htot : Meter.total (s.history ++ [(w.clock (s.turns + 1), BitVec.ofInt 64 g.ret)]) = s.out.length + bs.length := by
        rw [Meter.total_append, h.total, hsize]
      have hw := ShaperTool.write_willing g.mem bs.length s.output 0 bs.length 0 h.willing (by rw [b5, h.buffer]; omega) hpos (by omega)
      have ewrite : Fd.write s.output g.mem (BitVec.ofInt 64 g.ret) = Fd.writeLoop (bs.length : Nat) g.mem s.output 0 bs.length (0 : Nat) := by
        unfold Fd.write Fd.writeGeneric
        rw [hsize, BitVec.toInt_eq_toNat_of_lt (by rw [hsize]; omega), hsize]
        rfl
      rw [ewrite]
      rcases hw with hw | ⟨p, hw, p1, p2, p3⟩
      · rw [hw]
        exact { willing := h.willing, buffer := by show g.mem.length = _; rw [b5]; exact h.buffer, errors := herr', sorted := hsort', meter := hmeter, pending := h.pending, sizes := hsz
                bytes := ⟨_, hbytes.symm⟩
                total := by show s.out.length ≤ Meter.total _ ∧ Meter.total _ ≤ s.out.length + _; rw [htot]; omega }
      · rw [hw]
        simp only []
        rw [if_pos (by omega)]
        rw [List.drop_zero, b4] at p2
        apply checks_after
        · exact { willing := p3, buffer := by show g.mem.length = _; rw [b5]; exact h.buffer, errors := herr', sorted := hsort', meter := hmeter
                  pending := fun x hx => by
                    rcases List.mem_append.mp hx with hx | hx
                    · exact h.pending x hx
                    · exact ⟨_, Or.inl hx⟩
                  sizes := hsz }
        · show content input = (s.out ++ p.out) ++ content g.kernel
          rw [hbytes, b6, p2, List.append_assoc]
        · show Meter.total (s.history ++ _) = (s.out ++ p.out).length
          rw [htot, p2, List.length_append]
        · intro hv
          show s.reports.length + 1 = (s.history ++ _).length
          rw [h.reports hv, List.length_append]; rfl
        · intro m hm
          obtain ⟨h', q1, q2⟩ := h.snapshots m hm
          exact ⟨h', q1.trans (List.prefix_append _ _), q2⟩

/-- How a run ends, in a state in which all is well. -/
def Over (w : World) (verbose : Bool) (block : BitVec 64) (input : List Source) : Outcome → Prop
  | .exit status s => ∃ s', Ended w verbose block input status s' ∧ finish w status s' = .exit status s
  | .blocks s => Stuck w verbose block input s
  | .running s => Good w verbose block input s
  | .undefined => False

theorem loop_over (w : World) (verbose : Bool) (block : BitVec 64) (h0 : 0 < block.toNat) (h63 : block.toNat < 2 ^ 63) (input : List Source) (turns : Nat) :
    ∀ s, Good w verbose block input s → Over w verbose block input (loop w verbose block turns s) := by
  induction turns with
  | zero => intro s h; exact h
  | succ turns ih =>
    intro s h
    have ha := turn_after w verbose block h0 h63 input s h
    unfold loop
    cases ht : turn w verbose block s with
    | again s' => rw [ht] at ha; exact ih s' ha
    | stop status s' => rw [ht] at ha; exact ⟨s', ha, rfl⟩
    | never o =>
      rw [ht] at ha
      cases o with
      | blocks s' => exact ha
      | exit n s' => exact ha.elim
      | running s' => exact ha.elim
      | undefined => exact ha.elim

theorem start_good (w : World) (verbose : Bool) (block : BitVec 64) (memory : List Byte) (hm : memory.length = block.toNat) (input : List Source) (output : List Sink) (hw : Willing output) : Good w verbose block input (start w memory input output) where
  willing := hw
  buffer := hm
  errors := id
  sorted := fun _ => ⟨trivial, 0, Nat.le_refl _, rfl⟩
  meter := rfl
  pending := fun _ h => nomatch h
  sizes := fun _ h => nomatch h
  bytes := rfl
  total := rfl
  reports := fun _ => rfl
  snapshots := fun _ h => nomatch h

theorem main_over (w : World) (verbose : Bool) (block : BitVec 64) (h0 : 0 < block.toNat) (h63 : block.toNat < 2 ^ 63) (memory : List Byte) (hm : memory.length = block.toNat) (input : List Source) (output : List Sink)
    (hw : Willing output) (turns : Nat) : Over w verbose block input (main w verbose block (some memory) input output turns) := by
  unfold main
  rw [if_neg (by intro h; rw [h] at h0; simp at h0)]
  exact loop_over w verbose block h0 h63 input turns _ (start_good w verbose block memory hm input output hw)

/-- The signals that wait, if none that ends the tool interrupts the reading. -/
theorem turn_hup (w : World) (verbose : Bool) (block : BitVec 64) (hi : ∀ i, ∀ g ∈ w.interrupts i, g = .hup) (s : State) (h : ∀ g ∈ s.pending, g = .hup) :
    match turn w verbose block s with
    | .again s' | .never (.blocks s') => ∀ g ∈ s'.pending, g = .hup
    | _ => True := by
  have checks_hup : ∀ s : State, match checks verbose s with
      | .again s' | .never (.blocks s') => ∀ g ∈ s'.pending, g = .hup
      | _ => True := by
    intro s
    unfold checks
    by_cases h1 : .int ∈ s.pending
    · rw [if_pos h1]; trivial
    · rw [if_neg h1]
      by_cases h2 : .term ∈ s.pending
      · rw [if_pos h2]; trivial
      · rw [if_neg h2]
        by_cases h3 : .pipe ∈ s.pending
        · rw [if_pos h3]; trivial
        · rw [if_neg h3]
          simp only []
          have key : ∀ g ∈ s.pending.filter (· ≠ .hup), g = .hup := by
            intro g hg
            obtain ⟨q1, q2⟩ := List.mem_filter.mp hg
            cases g with
            | hup => rfl
            | int => exact absurd q1 h1
            | term => exact absurd q1 h2
            | pipe => exact absurd q1 h3
          by_cases hv : (decide (.hup ∈ s.pending) || verbose) = true
          · rw [if_pos hv]; exact key
          · rw [if_neg hv]; exact key
  unfold turn
  simp only []
  cases Fd.readGeneric s.input s.buffer 1 block with
  | undefined => trivial
  | blocks => exact h
  | done g =>
    simp only []
    by_cases h1 : g.ret > 0
    · rw [if_pos h1]
      cases Fd.write s.output g.mem (BitVec.ofInt 64 g.ret) with
      | undefined => trivial
      | blocks => exact h
      | done p =>
        simp only []
        by_cases h2 : p.ret > 0
        · rw [if_pos h2]; exact checks_hup _
        · rw [if_neg h2]
          by_cases h3 : p.ret = 0
          · rw [if_pos h3]; trivial
          · rw [if_neg h3]; trivial
    · rw [if_neg h1]
      by_cases h2 : g.ret = 0
      · rw [if_pos h2]; trivial
      · rw [if_neg h2]
        by_cases h3 : w.interrupts (s.turns + 1) ≠ []
        · rw [if_pos h3]
          intro x hx
          rcases List.mem_append.mp hx with hx | hx
          · exact h x hx
          · exact hi _ x hx
        · rw [if_neg h3]; trivial

theorem loop_hup (w : World) (verbose : Bool) (block : BitVec 64) (hi : ∀ i, ∀ g ∈ w.interrupts i, g = .hup) (turns : Nat) : ∀ s : State, (∀ g ∈ s.pending, g = .hup) →
    match loop w verbose block turns s with
    | .running s' | .blocks s' => ∀ g ∈ s'.pending, g = .hup
    | _ => True := by
  induction turns with
  | zero => intro s h; exact h
  | succ turns ih =>
    intro s h
    have ha := turn_hup w verbose block hi s h
    have hne : ∀ s', turn w verbose block s ≠ .never (.running s') := by
      intro s'
      unfold turn
      simp only []
      cases Fd.readGeneric s.input s.buffer 1 block with
      | undefined => simp
      | blocks => simp
      | done g =>
        simp only []
        by_cases h1 : g.ret > 0
        · rw [if_pos h1]
          cases Fd.write s.output g.mem (BitVec.ofInt 64 g.ret) with
          | undefined => simp
          | blocks => simp
          | done p =>
            simp only [checks]
            repeat' split
            all_goals simp
        · rw [if_neg h1]
          repeat' split
          all_goals simp
    unfold loop
    cases ht : turn w verbose block s with
    | again s' => rw [ht] at ha; exact ih s' ha
    | stop status s' => trivial
    | never o =>
      rw [ht] at ha
      cases o with
      | blocks s' => exact ha
      | exit n s' => trivial
      | running s' => exact absurd ht (hne s')
      | undefined => trivial

/-- With a reader that is gone the loop ends with success only if there is nothing to be written. -/
theorem loop_gone (w : World) (verbose : Bool) (block : BitVec 64) (h0 : 0 < block.toNat) (h63 : block.toNat < 2 ^ 63) (k : List Sink) (turns : Nat) :
    ∀ (s t : State), s.output = .error :: k → s.buffer.length = block.toNat → loop w verbose block turns s = .exit 0 t → content s.input = [] := by
  induction turns with
  | zero => intro s t _ _ h; exact nomatch h
  | succ turns ih =>
    intro s t ho hb h
    unfold loop turn at h
    simp only [] at h
    cases hin : s.input with
    | nil => rfl
    | cons e k' =>
      obtain ⟨g, hg, hcase⟩ := ShaperTool.read_one e k' s.buffer block h0 (by rw [hb]; omega)
      rw [hin, hg] at h
      simp only [] at h
      rcases hcase with ⟨h1, h2, h3⟩ | ⟨h1, h2, h3⟩ | ⟨bs, b1, b2, b3, b4, b5, b6⟩
      · exact h3
      · rw [if_neg (by omega), if_neg (by omega)] at h
        by_cases hi : w.interrupts (s.turns + 1) ≠ []
        · rw [if_pos hi] at h
          rw [h3]
          simp only [] at h
          refine ih _ t ?_ ?_ h
          · exact ho
          · show g.mem.length = _
            rw [h2]; exact hb
        · rw [if_neg hi] at h
          unfold finish at h
          cases h
      · have hpos : 0 < bs.length := List.length_pos_iff.mpr b1
        have hsize : (BitVec.ofInt 64 g.ret).toNat = bs.length := by
          rw [b3, BitVec.ofInt_natCast, BitVec.toNat_ofNat]
          omega
        have ewrite : Fd.write (.error :: k) g.mem (BitVec.ofInt 64 g.ret) = .done ⟨-1, [], k, [(bs.length, .error)]⟩ := by
          unfold Fd.write Fd.writeGeneric Fd.writeLoop
          rw [hsize, if_pos hpos]
          rfl
        rw [if_pos (by omega), ho, ewrite] at h
        simp only [] at h
        rw [if_neg (by decide), if_neg (by decide)] at h
        unfold finish at h
        cases h

end Diminuto.Metertool
