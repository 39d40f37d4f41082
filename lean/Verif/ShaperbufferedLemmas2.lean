import Verif.ShaperbufferedLemmas

/-!
# Lemmas for the tool that shapes traffic with the functions of the C library: the loop
-/

namespace Diminuto.Shaperbuffered

open Diminuto.Throttle (Shaper Ticks)
open Diminuto.Stdio (Stream)
open Diminuto.ShaperTool (Options Contract Good Fits volume)

/-- The state after data has been read. -/
def fetched (s : State) (bs : List Byte) (i : Stream) : State :=
  { s with
    readings := s.readings + 1
    input := i
    count := s.count + 1
    total := s.total + BitVec.ofNat 64 bs.length
    burst := if BitVec.ofNat 64 bs.length > s.burst then BitVec.ofNat 64 bs.length else s.burst
    checksum := (Fletcher.fletcher16 bs s.fletcher).1
    fletcher := (Fletcher.fletcher16 bs s.fletcher).2 }

/-- The state after it has been released. -/
def released (w : World) (s : State) (bs : List Byte) (reading : Nat) (shaper : Shaper) : State :=
  { s with readings := reading + 1, shaper := shaper, commits := s.commits ++ [(w.clock reading, bs.length)] }

theorem turn_eof {w : World} {m : Mode} {block : BitVec 64} {shaped : Bool} {requests : Nat} {s : State} {i : Stream} (h : input m block s.input = (.eof, i)) :
    turn w m block shaped requests s = .inr (.exit 0 { s with readings := s.readings + 1, input := i }) := by
  unfold turn
  simp only [h]

theorem turn_error {w : World} {m : Mode} {block : BitVec 64} {shaped : Bool} {requests : Nat} {s : State} {i : Stream} (h : input m block s.input = (.error, i)) :
    turn w m block shaped requests s = .inr (.exit 3 { s with readings := s.readings + 1, input := i }) := by
  unfold turn
  simp only [h]

theorem turn_data {w : World} {m : Mode} {block : BitVec 64} {shaped : Bool} {requests : Nat} {s : State} {bs : List Byte} {i : Stream} (h : input m block s.input = (.data bs, i)) :
    (release w shaped requests (BitVec.ofNat 64 bs.length) (fetched s bs i) = none ∧ turn w m block shaped requests s = .inr (.running (fetched s bs i))) ∨
    ∃ reading shaper, release w shaped requests (BitVec.ofNat 64 bs.length) (fetched s bs i) = some (reading, shaper) ∧ turn w m block shaped requests s = output w bs (released w (fetched s bs i) bs reading shaper) := by
  have e : turn w m block shaped requests s = (match release w shaped requests (BitVec.ofNat 64 bs.length) (fetched s bs i) with
      | none => .inr (.running (fetched s bs i))
      | some (reading, shaper) => output w bs (released w (fetched s bs i) bs reading shaper)) := by
    unfold turn
    simp only [h]
    rfl
  rw [e]
  cases hr : release w shaped requests (BitVec.ofNat 64 bs.length) (fetched s bs i) with
  | none => exact Or.inl ⟨rfl, rfl⟩
  | some p => exact Or.inr ⟨p.1, p.2, rfl, rfl⟩

/-! ## The data -/

/-- The statistics are those of what has been read: what has been accepted and what has been lost or waits. -/
structure Stats (s : State) (rest : List Byte) (sizes : List Nat) : Prop where
  total : s.total = BitVec.ofNat 64 (s.out ++ rest).length
  fletcher : s.fletcher = (Fletcher.fletcher16 (s.out ++ rest) ⟨0, 0⟩).2
  checksum : s.checksum = if s.out ++ rest = [] then 0 else (Fletcher.fletcher16 (s.out ++ rest) ⟨0, 0⟩).1
  sum : sizes.sum = (s.out ++ rest).length
  count : s.count = BitVec.ofNat 64 sizes.length
  burst : s.burst.toNat = sizes.foldl max 0

theorem stats_fetched {s : State} {sizes : List Nat} {bs : List Byte} (i : Stream) (h : Stats s [] sizes) (hs : bs ≠ []) (hb : bs.length < 2 ^ 64) : Stats (fetched s bs i) bs (sizes ++ [bs.length]) := by
  obtain ⟨h1, h2, h3, h4, h5, h6⟩ := h
  rw [List.append_nil] at h1 h2 h3 h4
  refine ⟨?_, ?_, ?_, ?_, ?_, ?_⟩
  · show s.total + _ = _
    rw [h1, ← BitVec.ofNat_add, ← List.length_append]; rfl
  · show (Fletcher.fletcher16 bs s.fletcher).2 = (Fletcher.fletcher16 (s.out ++ bs) ⟨0, 0⟩).2
    rw [h2, ShaperTool.fletcher_append]
  · show (Fletcher.fletcher16 bs s.fletcher).1 = if s.out ++ bs = [] then 0 else (Fletcher.fletcher16 (s.out ++ bs) ⟨0, 0⟩).1
    rw [if_neg (fun h => hs (List.append_eq_nil_iff.mp h).2), h2, ShaperTool.fletcher_append]
  · show (sizes ++ [bs.length]).sum = (s.out ++ bs).length
    rw [List.sum_append, h4, List.length_append]; simp
  · show s.count + 1 = _
    rw [h5, List.length_append, BitVec.ofNat_add]; rfl
  · show (if BitVec.ofNat 64 bs.length > s.burst then BitVec.ofNat 64 bs.length else s.burst).toNat = _
    have e : (BitVec.ofNat 64 bs.length).toNat = bs.length := by rw [BitVec.toNat_ofNat]; omega
    rw [List.foldl_append, ← h6]
    show _ = max s.burst.toNat bs.length
    by_cases hc : BitVec.ofNat 64 bs.length > s.burst
    · rw [if_pos hc]
      rw [gt_iff_lt, BitVec.lt_def] at hc
      omega
    · rw [if_neg hc]
      rw [gt_iff_lt, BitVec.lt_def] at hc
      omega

/-- The end of a run. -/
structure Ended (w : World) (all : List Byte) (items : List (Option Byte)) (n : Nat) (s : State) (rest : List Byte) (sizes : List Nat) : Prop where
  status : n = 0 ∨ n = 3 ∨ n = 4
  sizes : sizes = s.commits.map Prod.snd
  all : n = 0 → rest = [] ∧ s.out = all
  failed : n = 3 → rest = [] ∧ none ∈ items
  refused : n = 4 → ∃ i k, w.fails i = some k

theorem loop_data {w : World} {m : Mode} {block : BitVec 64} {shaped : Bool} (hb : block ≠ 0) (requests turns : Nat) (all : List Byte) (items : List (Option Byte)) : ∀ s, Suits m block s.input.items → Over s.input →
    (∀ x ∈ s.input.items, x ∈ items) → all = s.out ++ bytes s.input.items → Stats s [] (s.commits.map Prod.snd) →
    ∃ s' rest sizes, (loop w m block shaped requests turns s).state = some s' ∧ Stats s' rest sizes ∧ (s'.out ++ rest) <+: all ∧ ∀ n t, loop w m block shaped requests turns s = .exit n t → Ended w all items n s' rest sizes := by
  induction turns with
  | zero => intro s _ _ _ ha hs; exact ⟨s, [], _, rfl, hs, ⟨bytes s.input.items, by rw [ha, List.append_nil]⟩, fun n t hn => by cases hn⟩
  | succ turns ih =>
    intro s hm ho hsub ha hs
    have hi := input_after hb hm ho
    unfold loop
    rcases hin : input m block s.input with ⟨r, i⟩
    rw [hin] at hi
    obtain ⟨hdoes, hover, hsub', -⟩ := hi
    have hs0 : Stats { s with readings := s.readings + 1, input := i } [] (s.commits.map Prod.snd) := ⟨hs.total, hs.fletcher, hs.checksum, hs.sum, hs.count, hs.burst⟩
    cases hdoes with
    | eof h0 =>
      rw [turn_eof hin]
      rw [h0, List.append_nil] at ha
      refine ⟨_, [], _, rfl, hs0, ⟨[], ?_⟩, ?_⟩
      · rw [ha]; simp
      · intro n t hn
        cases hn
        exact ⟨Or.inl rfl, rfl, fun _ => ⟨rfl, ha.symm⟩, nofun, nofun⟩
    | error hf =>
      rw [turn_error hin]
      refine ⟨_, [], _, rfl, hs0, ⟨bytes s.input.items, ?_⟩, ?_⟩
      · rw [ha, List.append_nil]
      · intro n t hn
        cases hn
        exact ⟨Or.inr (Or.inl rfl), rfl, nofun, fun _ => ⟨rfl, hsub _ hf⟩, nofun⟩
    | data bs h1 h2 h3 =>
      have hst := stats_fetched i hs h1 (by omega)
      have hall : all = (s.out ++ bs) ++ bytes i.items := by rw [ha, h3, List.append_assoc]
      rcases turn_data (w := w) (shaped := shaped) (requests := requests) hin with ⟨-, ht⟩ | ⟨reading, shaper, -, ht⟩
      · rw [ht]
        exact ⟨_, bs, _, rfl, hst, ⟨_, hall.symm⟩, fun n t hn => by cases hn⟩
      · rw [ht]
        unfold output
        cases hw : w.fails (released w (fetched s bs i) bs reading shaper).outputs with
        | none =>
          apply ih
          · intro h
            obtain ⟨a, b⟩ := hm h
            exact ⟨fun hz => a (by rw [h3]; exact List.mem_append_right _ hz), b⟩
          · exact hover
          · exact fun x hx => hsub _ (hsub' x hx)
          · exact hall
          · have e : (s.commits ++ [(w.clock reading, bs.length)]).map Prod.snd = s.commits.map Prod.snd ++ [bs.length] := by simp
            show Stats _ [] ((s.commits ++ [(w.clock reading, bs.length)]).map Prod.snd)
            rw [e]
            refine ⟨?_, ?_, ?_, ?_, hst.count, hst.burst⟩ <;> rw [List.append_nil]
            · exact hst.total
            · exact hst.fletcher
            · exact hst.checksum
            · exact hst.sum
        | some k =>
          have e : s.out ++ bs.take k ++ bs.drop k = s.out ++ bs := by rw [List.append_assoc, List.take_append_drop]
          refine ⟨_, bs.drop k, _, rfl, ⟨?_, ?_, ?_, ?_, hst.count, hst.burst⟩, ?_, ?_⟩
          · show _ = BitVec.ofNat 64 (s.out ++ bs.take k ++ bs.drop k).length
            rw [e]; exact hst.total
          · show _ = (Fletcher.fletcher16 (s.out ++ bs.take k ++ bs.drop k) _).2
            rw [e]; exact hst.fletcher
          · show _ = if s.out ++ bs.take k ++ bs.drop k = [] then 0 else (Fletcher.fletcher16 (s.out ++ bs.take k ++ bs.drop k) _).1
            rw [e]; exact hst.checksum
          · show _ = (s.out ++ bs.take k ++ bs.drop k).length
            rw [e]; exact hst.sum
          · show (s.out ++ bs.take k ++ bs.drop k) <+: all
            rw [e]; exact ⟨_, hall.symm⟩
          · intro n t hn
            cases hn
            refine ⟨Or.inr (Or.inr rfl), ?_, nofun, nofun, fun _ => ⟨_, _, hw⟩⟩
            show _ = (s.commits ++ [(w.clock reading, bs.length)]).map Prod.snd
            simp

/-! ## The end -/

theorem loop_ends (w : World) (m : Mode) (block : BitVec 64) (requests turns : Nat) : ∀ s, s.input.items.length < turns → ∃ n t, loop w m block false requests turns s = .exit n t := by
  induction turns with
  | zero => intro s h; omega
  | succ turns ih =>
    intro s h
    unfold loop
    rcases hin : input m block s.input with ⟨r, i⟩
    cases r with
    | eof => rw [turn_eof hin]; exact ⟨_, _, rfl⟩
    | error => rw [turn_error hin]; exact ⟨_, _, rfl⟩
    | data bs =>
      have hf := (input_fewer m block s.input bs (by rw [hin])).1
      rw [hin] at hf
      rcases turn_data (w := w) (shaped := false) (requests := requests) hin with ⟨hr, -⟩ | ⟨reading, shaper, hr, ht⟩
      · cases hr
      · rw [ht]
        unfold output
        cases hw : w.fails (released w (fetched s bs i) bs reading shaper).outputs with
        | none =>
          apply ih
          have hf : i.items.length < s.input.items.length := hf
          show i.items.length < turns
          omega
        | some k => exact ⟨_, _, rfl⟩

/-! ## The rates -/

/-- What holds as the loop goes round. -/
structure Fair (w : World) (c : Contract) (block : Nat) (s : State) : Prop where
  sizes : ∀ e ∈ s.commits, e.2 ≤ block
  good : ∃ j, j < s.readings ∧ Good c.peakIncrement c.jitterTolerance (w.clock 0) s.shaper.peak s.commits (w.clock j) ∧
    Good c.sustainedIncrement c.burstTolerance (w.clock 0) s.shaper.sustained s.commits (w.clock j)

theorem short_input (m : Mode) (size : BitVec 64) (s : Stream) (bs : List Byte) (hsize : size ≠ 0) (h : (input m size s).1 = .data bs) : bs.length ≤ size.toNat := by
  have h0 : 0 < size.toNat := Nat.pos_of_ne_zero fun h => hsize (BitVec.eq_of_toNat_eq h)
  have judged : ∀ (l : List Byte) (s : Stream), judge l s = .data bs → l = bs := by
    intro l s h
    by_cases hl : l = []
    · subst hl
      rw [judge_nil] at h
      split at h <;> cases h
    · rw [judge_some hl] at h
      cases h
      rfl
  have fr : ∀ n, judge (Stdio.fread n s).1 (Stdio.fread n s).2 = .data bs → bs.length ≤ n := by
    intro n h
    have h1 := judged _ _ h
    revert h1
    unfold Stdio.fread
    by_cases he : s.eof = true
    · rw [if_pos he]; intro h1; rw [← h1]; exact Nat.zero_le _
    · rw [if_neg he]; intro h1; rw [← h1]; exact (gathered false n s.items).short
  cases m with
  | block => exact fr _ h
  | character => exact Nat.le_trans (fr 1 h) h0
  | line =>
    have hint : (Stdio.int size).toNat ≤ size.toNat := by
      unfold Stdio.int
      have e : (size.truncate 32).toNat ≤ size.toNat := by rw [BitVec.truncate_eq_setWidth, BitVec.toNat_setWidth]; exact Nat.mod_le _ _
      have := BitVec.toInt_eq_toNat_cond (size.truncate 32)
      split at this <;> omega
    have htext : ∀ l : List Byte, (Stdio.text l).length ≤ l.length := fun l => (List.takeWhile_prefix _).length_le
    revert h
    unfold input Stdio.fgets
    by_cases h1 : Stdio.int size ≤ 0
    · rw [if_pos h1]; intro h; rw [← judged [] s h]; exact Nat.zero_le _
    · rw [if_neg h1]
      by_cases h2 : Stdio.int size = 1
      · rw [if_pos h2]; intro h; rw [← judged [] s h]; exact Nat.zero_le _
      · rw [if_neg h2]
        by_cases he : s.eof = true
        · rw [if_pos he]; intro h; rw [← judged [] s h]; exact Nat.zero_le _
        · rw [if_neg he]
          simp only []
          by_cases hc : ((Stdio.gather true ((Stdio.int size).toNat - 1) s.items).1 = [] || (Stdio.gather true ((Stdio.int size).toNat - 1) s.items).2.1 = .error) = true
          · rw [if_pos hc]; intro h; rw [← judged [] (s.after _ _) h]; exact Nat.zero_le _
          · rw [if_neg hc]
            intro h
            rw [← judged (Stdio.text (Stdio.gather true ((Stdio.int size).toNat - 1) s.items).1) (s.after _ _) h]
            have a := htext (Stdio.gather true ((Stdio.int size).toNat - 1) s.items).1
            have b := (gathered true ((Stdio.int size).toNat - 1) s.items).short
            omega

theorem fair_released {w : World} {c : Contract} {block : BitVec 64} {s : State} {bs : List Byte} {i : Stream} {reading requests : Nat} {shaper : Shaper} (hs : Steady w) (hf : Fits c block.toNat) (hb : block.toNat < 2 ^ 63)
    (h : Fair w c block.toNat s) (hl : bs.length ≤ block.toNat) (hr : release w true requests (BitVec.ofNat 64 bs.length) (fetched s bs i) = some (reading, shaper)) :
    Fair w c block.toNat (released w (fetched s bs i) bs reading shaper) := by
  obtain ⟨f2, j, j1, j2, j3⟩ := h
  unfold release at hr
  rw [if_pos rfl] at hr
  obtain ⟨⟨r, sh⟩, hp, he⟩ := Option.map_eq_some_iff.mp hr
  cases he
  obtain ⟨hr1, hq⟩ := ShaperTool.shape_spec _ _ _ _ _ _ hp
  obtain ⟨q1, q2, q3⟩ := ShaperTool.request_zero hq
  subst q3
  have hr1 : s.readings + 1 ≤ r := hr1
  have hjr := hs.1 j r (by omega)
  have hgap : w.clock r - w.clock j < 2 ^ 64 := by
    have := hs.2 r
    have := hs.1 0 j (Nat.zero_le _)
    omega
  have hm1 : bs.length * c.peakIncrement.toNat ≤ block.toNat * c.peakIncrement.toNat := Nat.mul_le_mul_right _ hl
  have hm2 : bs.length * c.sustainedIncrement.toNat ≤ block.toNat * c.sustainedIncrement.toNat := Nat.mul_le_mul_right _ hl
  obtain ⟨hf1, hf2⟩ := hf
  refine ⟨?_, r, Nat.lt_succ_self _, ShaperTool.good_admit j2 hjr hgap (by omega) (by omega) q1, ShaperTool.good_admit j3 hjr hgap (by omega) (by omega) q2⟩
  intro e he
  rcases List.mem_append.mp he with he | he
  · exact f2 e he
  · rw [List.mem_singleton] at he
    subst he
    exact hl

theorem loop_fair {w : World} {m : Mode} {c : Contract} {block : BitVec 64} (hs : Steady w) (hf : Fits c block.toNat) (hb0 : block ≠ 0) (hb : block.toNat < 2 ^ 63) (requests turns : Nat) :
    ∀ s, Fair w c block.toNat s → ∃ s', (loop w m block true requests turns s).state = some s' ∧ Fair w c block.toNat s' := by
  induction turns with
  | zero => intro s h; exact ⟨s, rfl, h⟩
  | succ turns ih =>
    intro s h
    have hquiet : ∀ s' : State, s'.commits = s.commits → s'.shaper = s.shaper → s'.readings = s.readings + 1 → Fair w c block.toNat s' := by
      intro s' h1 h2 h3
      obtain ⟨f2, j, j1, j2, j3⟩ := h
      exact ⟨by rw [h1]; exact f2, j, by omega, by rw [h1, h2]; exact j2, by rw [h1, h2]; exact j3⟩
    unfold loop
    rcases hin : input m block s.input with ⟨r, i⟩
    cases r with
    | eof => rw [turn_eof hin]; exact ⟨_, rfl, hquiet _ rfl rfl rfl⟩
    | error => rw [turn_error hin]; exact ⟨_, rfl, hquiet _ rfl rfl rfl⟩
    | data bs =>
      have hl := short_input m block s.input bs hb0 (by rw [hin])
      rcases turn_data (w := w) (shaped := true) (requests := requests) hin with ⟨hr, ht⟩ | ⟨reading, shaper, hr, ht⟩
      · rw [ht]; exact ⟨_, rfl, hquiet _ rfl rfl rfl⟩
      · rw [ht]
        have hfair := fair_released hs hf hb h hl hr
        unfold output
        cases hw : w.fails (released w (fetched s bs i) bs reading shaper).outputs with
        | none => exact ih _ ⟨hfair.sizes, hfair.good⟩
        | some k => exact ⟨_, rfl, hfair.sizes, hfair.good⟩

/-- The rates that are used bound what is released. -/
theorem main_rate {w : World} (hs : Steady w) (m : Mode) {o : Options} (hr : Reasonable o) {p s b : BitVec 64} (hrates : ShaperTool.rates o = some (p, s, b)) (hp : p ≠ 0) (hs0 : s ≠ 0) (hsp : s ≤ p)
    (hb : b.toNat ≤ o.burst.toNat) (garbage : Shaper) (stdin : List (Option Byte)) (requests turns : Nat) :
    ∃ t, (main w m o true garbage stdin requests turns).state = some t ∧ ∀ u v,
      (volume u v t.commits - o.block.toNat) * 10 ^ 9 ≤ (v + o.jitter.toNat * 1000) * p.toNat ∧
      (volume u v t.commits - o.block.toNat) * 10 ^ 9 ≤ (v + o.jitter.toNat * 1000) * s.toNat + (b.toNat - 1) * (10 ^ 9 + s.toNat) := by
  obtain ⟨j1, j2⟩ := ShaperTool.jitter_ticks o.jitter hr.jitter
  obtain ⟨p1, p2, p3⟩ := ShaperTool.interarrival_bounds p hp
  obtain ⟨s1, s2, s3⟩ := ShaperTool.interarrival_bounds s hs0
  have hj := hr.jitter
  have hbo := hr.block.2
  have hbu := hr.burst
  obtain ⟨c, hc⟩ : ∃ c : Contract, c = { peakIncrement := Throttle.interarrivalTime p 1 1000000000, jitterTolerance := BitVec.ofInt 64 ((o.jitter.toNat * 1000 : Nat) : Int), sustainedIncrement := Throttle.interarrivalTime s 1 1000000000, burstTolerance := Throttle.burstTolerance (Throttle.interarrivalTime p 1 1000000000) (BitVec.ofInt 64 ((o.jitter.toNat * 1000 : Nat) : Int)) (Throttle.interarrivalTime s 1 1000000000) b } := ⟨_, rfl⟩
  have hcon : ShaperTool.contract p s b o.jitter = some c := by
    unfold ShaperTool.contract
    rw [j1, hc]
    rfl
  have hbt : c.burstTolerance.toNat ≤ o.jitter.toNat * 1000 + (b.toNat - 1) * c.sustainedIncrement.toNat := by
    rw [hc]
    have := ShaperTool.burst_bounds (Throttle.interarrivalTime p 1 1000000000) (Throttle.interarrivalTime s 1 1000000000) (BitVec.ofInt 64 ((o.jitter.toNat * 1000 : Nat) : Int)) b p3 s3 (by rw [j2]; omega) (by omega)
    rwa [j2] at this
  have hjt : c.jitterTolerance.toNat = o.jitter.toNat * 1000 := by rw [hc]; exact j2
  have hpi : c.peakIncrement.toNat = (Throttle.interarrivalTime p 1 1000000000).toNat := by rw [hc]
  have hsi : c.sustainedIncrement.toNat = (Throttle.interarrivalTime s 1 1000000000).toNat := by rw [hc]
  rw [← hpi] at p1 p2 p3
  rw [← hsi] at s1 s2 s3
  have hfits : Fits c o.block.toNat := by
    have m1 : o.block.toNat * c.peakIncrement.toNat ≤ 2 ^ 32 * 10 ^ 9 := Nat.mul_le_mul hbo p3
    have m2 : o.block.toNat * c.sustainedIncrement.toNat ≤ 2 ^ 32 * 10 ^ 9 := Nat.mul_le_mul hbo s3
    have m3 : (b.toNat - 1) * c.sustainedIncrement.toNat ≤ 2 ^ 32 * 10 ^ 9 := Nat.mul_le_mul (by omega) s3
    unfold Fits
    omega
  obtain ⟨t, t1, t2⟩ := loop_fair (m := m) hs hfits hr.block.1 (by omega) requests turns
    { start garbage stdin with readings := 1, shaper := Throttle.shaperInit garbage c.peakIncrement c.jitterTolerance c.sustainedIncrement c.burstTolerance (BitVec.ofNat 64 (w.clock 0)) }
    ⟨by simp [start], 0, Nat.zero_lt_one,
      ⟨(Throttle.init_rel garbage.peak c.peakIncrement c.jitterTolerance (w.clock 0)).1, (Throttle.init_rel garbage.peak c.peakIncrement c.jitterTolerance (w.clock 0)).2.1, rfl, rfl, trivial⟩,
      ⟨(Throttle.init_rel garbage.sustained c.sustainedIncrement c.burstTolerance (w.clock 0)).1, (Throttle.init_rel garbage.sustained c.sustainedIncrement c.burstTolerance (w.clock 0)).2.1, rfl, rfl, trivial⟩⟩
  refine ⟨t, ?_, fun u v => ?_⟩
  · have pos : ∀ x : BitVec 64, x ≠ 0 → x > 0 := fun x hx => by
      rw [gt_iff_lt, BitVec.lt_def]
      exact Nat.pos_of_ne_zero fun h => hx (BitVec.eq_of_toNat_eq h)
    have hcond : (decide (p > 0) && decide (s > 0) && decide (s ≤ p)) = true := by
      rw [decide_eq_true (pos p hp), decide_eq_true (pos s hs0), decide_eq_true hsp]; rfl
    unfold main
    simp only [if_neg hr.block.1, hrates]
    rw [if_neg (by simp), if_pos hcond]
    simp only [hcon]
    exact t1
  · obtain ⟨j, -, g1, g2⟩ := t2.good
    have v1 := ShaperTool.conforms_volume g1.conforms p1 t2.sizes u v
    have v2 := ShaperTool.conforms_volume g2.conforms s1 t2.sizes u v
    rw [hjt] at v1
    refine ⟨v1, Nat.le_trans v2 ?_⟩
    have m1 : (v + c.burstTolerance.toNat) * s.toNat ≤ (v + (o.jitter.toNat * 1000 + (b.toNat - 1) * c.sustainedIncrement.toNat)) * s.toNat := Nat.mul_le_mul_right _ (by omega)
    refine Nat.le_trans m1 ?_
    rw [← Nat.add_assoc, Nat.add_mul, Nat.mul_assoc]
    exact Nat.add_le_add_left (Nat.mul_le_mul_left _ s2) _

end Diminuto.Shaperbuffered
