import Verif.ShaperToolLemmas2

/-!
# More lemmas for the tool that shapes traffic: the invariants
-/

namespace Diminuto.ShaperTool

open Diminuto.Fd (Source Sink)
open Diminuto.Throttle (Shaper Ticks Conforms specTat Rel AlarmInv)

/-- A throttle has followed the commits, which have all conformed. -/
structure Good (increment limit : Ticks) (t0 : Nat) (th : Throttle.Throttle) (commits : List (Nat × Nat)) (last : Nat) : Prop where
  rel : Rel th (specTat increment.toNat t0 commits) last
  alarm : AlarmInv th
  sameLimit : th.limit = limit
  sameIncrement : th.increment = increment
  conforms : Conforms increment.toNat limit.toNat t0 commits

/-- An admission for which no delay has been asked. -/
theorem good_admit {increment limit : Ticks} {t0 : Nat} {th : Throttle.Throttle} {commits : List (Nat × Nat)} {last t n : Nat} (h : Good increment limit t0 th commits last)
    (hl : last ≤ t) (hg : t - last < 2 ^ 64) (hn : n < 2 ^ 64) (hb : limit.toNat + n * increment.toNat < 2 ^ 64) (h0 : (Throttle.request th (BitVec.ofNat 64 t)).1 = 0) :
    Good increment limit t0 (Throttle.admitn th (BitVec.ofNat 64 t) (BitVec.ofNat 64 n)).2 (commits ++ [(t, n)]) t := by
  have hq := (Throttle.request_rel th _ last t h.rel hl hg).1
  rw [h0, h.sameLimit] at hq
  have hq : 0 = specTat increment.toNat t0 commits - t - limit.toNat := hq
  obtain ⟨a1, a2, a3, a4, -, -⟩ := Throttle.admitn_rel th _ last t n h.rel h.alarm hl hg hn (by rw [h.sameIncrement]; omega)
  refine ⟨?_, a2, by rw [a3, h.sameLimit], by rw [a4, h.sameIncrement], (conforms_append ..).mpr ⟨h.conforms, by omega⟩⟩
  rw [specTat_append, ← h.sameIncrement]
  rw [← h.sameIncrement] at a1
  exact a1

/-- What holds as the loop goes round. -/
structure Fair (w : World) (c : Contract) (block : Nat) (s : State) : Prop where
  buffer : block ≤ s.buffer.length
  sizes : ∀ e ∈ s.commits, e.2 ≤ block
  good : ∃ j, j < s.readings ∧ Good c.peakIncrement c.jitterTolerance (w.clock 0) s.shaper.peak s.commits (w.clock j) ∧
    Good c.sustainedIncrement c.burstTolerance (w.clock 0) s.shaper.sustained s.commits (w.clock j)

/-- The counters do not overflow. -/
def Fits (c : Contract) (block : Nat) : Prop :=
  c.jitterTolerance.toNat + block * c.peakIncrement.toNat < 2 ^ 64 ∧ c.burstTolerance.toNat + block * c.sustainedIncrement.toNat < 2 ^ 64

theorem fair_quiet {w : World} {c : Contract} {block : Nat} {s s' : State} (h : Fair w c block s) (hq : Quiet s s') : Fair w c block s' := by
  obtain ⟨j, j1, j2, j3⟩ := h.good
  have := hq.readings
  exact ⟨by rw [hq.buffer]; exact h.buffer, by rw [hq.commits]; exact h.sizes, j, by omega, by rw [hq.shaper, hq.commits]; exact j2, by rw [hq.shaper, hq.commits]; exact j3⟩

theorem fair_read {w : World} {c : Contract} {block : Nat} {s s' : State} {bs : List Byte} (h : Fair w c block s) (hq : Read bs s s') : Fair w c block s' := by
  obtain ⟨j, j1, j2, j3⟩ := h.good
  have := hq.readings
  exact ⟨by rw [hq.buffer]; exact h.buffer, by rw [hq.commits]; exact h.sizes, j, by omega, by rw [hq.shaper, hq.commits]; exact j2, by rw [hq.shaper, hq.commits]; exact j3⟩

theorem request_zero {s sh : Shaper} {t : Ticks} (h : Throttle.shaperRequest s t = (0, sh)) : (Throttle.request s.peak t).1 = 0 ∧ (Throttle.request s.sustained t).1 = 0 ∧
    sh = ⟨(Throttle.request s.peak t).2, (Throttle.request s.sustained t).2⟩ := by
  have h1 : (if (Throttle.request s.peak t).1 > (Throttle.request s.sustained t).1 then (Throttle.request s.peak t).1 else (Throttle.request s.sustained t).1) = 0 := congrArg Prod.fst h
  have h2 : (⟨(Throttle.request s.peak t).2, (Throttle.request s.sustained t).2⟩ : Shaper) = sh := congrArg Prod.snd h
  have h3 := Throttle.toNat_longer (Throttle.request s.peak t).1 (Throttle.request s.sustained t).1
  rw [h1] at h3
  have h3 : 0 = max (Throttle.request s.peak t).1.toNat (Throttle.request s.sustained t).1.toNat := h3
  exact ⟨BitVec.eq_of_toNat_eq (by show _ = 0; omega), BitVec.eq_of_toNat_eq (by show _ = 0; omega), h2.symm⟩

theorem fair_commit {w : World} {c : Contract} {block : Nat} {s s' : State} {bs : List Byte} (hs : Steady w) (hf : Fits c block) (h : Fair w c block s) (hl : bs.length ≤ block) (hb : block < 2 ^ 63)
    (hc : Commit w.clock bs s s') : Fair w c block s' := by
  obtain ⟨s1, hread, r, sh, hr, hq, rfl⟩ := hc
  obtain ⟨f1, f2, j, j1, j2, j3⟩ := fair_read h hread
  obtain ⟨q1, q2, q3⟩ := request_zero hq
  subst q3
  have hjr := hs.1 j r (by omega)
  have hgap : w.clock r - w.clock j < 2 ^ 64 := by
    have := hs.2 r
    have := hs.1 0 j (Nat.zero_le _)
    omega
  have hm1 : bs.length * c.peakIncrement.toNat ≤ block * c.peakIncrement.toNat := Nat.mul_le_mul_right _ hl
  have hm2 : bs.length * c.sustainedIncrement.toNat ≤ block * c.sustainedIncrement.toNat := Nat.mul_le_mul_right _ hl
  obtain ⟨hf1, hf2⟩ := hf
  refine ⟨f1, ?_, r, Nat.lt_succ_self _, good_admit j2 hjr hgap (by omega) (by omega) q1, good_admit j3 hjr hgap (by omega) (by omega) q2⟩
  intro e he
  rcases List.mem_append.mp he with he | he
  · exact f2 e he
  · rw [List.mem_singleton] at he
    subst he
    exact hl

theorem fair_written {w : World} {c : Contract} {block : Nat} {s : State} (h : Fair w c block s) (o : List Sink) (l : List Byte) : Fair w c block { s with output := o, out := l } :=
  ⟨h.buffer, h.sizes, h.good⟩

theorem loop_fair {w : World} {c : Contract} {block : BitVec 64} (hs : Steady w) (hf : Fits c block.toNat) (hb : 0 < block.toNat) (hb' : block.toNat < 2 ^ 63) (requests turns : Nat) :
    ∀ s, Fair w c block.toNat s → ∃ s', (loop w block requests turns s).state = some s' ∧ Fair w c block.toNat s' := by
  induction turns with
  | zero => intro s h; exact ⟨s, rfl, h⟩
  | succ turns ih =>
    intro s h
    unfold loop
    rcases turn_cases w block requests s hb hb' h.buffer with ⟨s', h1, h2, -⟩ | ⟨s', h1, h2, -⟩ | ⟨s', h1 | h1, h2, -⟩ | ⟨bs, s', h1, h2, h3⟩ | ⟨bs, s1, h1, h2, h3⟩
    · rw [h1]; exact ⟨s', rfl, fair_quiet h h2⟩
    · rw [h1]; exact ⟨s', rfl, fair_quiet h h2⟩
    · rw [h1]; exact ih s' (fair_quiet h h2)
    · rw [h1]; exact ⟨s', rfl, fair_quiet h h2⟩
    · rw [h1]; exact ⟨s', rfl, fair_read h h3⟩
    · have hc := fair_commit hs hf h h1 hb' h2
      rcases h3 with h3 | ⟨p, -, h3⟩
      · rw [h3]; exact ⟨s1, rfl, hc⟩
      · rw [h3]
        by_cases hp : p.ret > 0
        · rw [if_pos hp]; exact ih _ (fair_written hc _ _)
        · rw [if_neg hp]
          by_cases hp' : p.ret = 0
          · rw [if_pos hp']; exact ⟨_, rfl, fair_written hc _ _⟩
          · rw [if_neg hp']; exact ⟨_, rfl, fair_written hc _ _⟩

/-- The statistics are those of what has been read, which is what has been written and perhaps one more block. -/
structure Stats (s : State) (pending : List Byte) : Prop where
  total : s.total = BitVec.ofNat 64 (s.out ++ pending).length
  fletcher : s.fletcher = (Fletcher.fletcher16 (s.out ++ pending) ⟨0, 0⟩).2
  checksum : s.checksum = if s.out ++ pending = [] then 0 else (Fletcher.fletcher16 (s.out ++ pending) ⟨0, 0⟩).1

/-- What holds of the data as the loop goes round, with a willing reader. -/
structure Faithful (all : List Byte) (s : State) (pending : List Byte) : Prop where
  data : all = (s.out ++ pending) ++ content s.input
  willing : Willing s.output
  stats : Stats s pending

theorem fletcher_append (a b : List Byte) (s : Fletcher.State) : Fletcher.fletcher16 (a ++ b) s = Fletcher.fletcher16 b (Fletcher.fletcher16 a s).2 := by
  simp [Fletcher.fletcher16, Fletcher.run]

theorem stats_quiet {s s' : State} (h : Stats s []) (hq : Quiet s s') : Stats s' [] := by
  refine ⟨?_, ?_, ?_⟩
  · rw [hq.out, hq.total]; exact h.total
  · rw [hq.out, hq.fletcher]; exact h.fletcher
  · rw [hq.out, hq.checksum]; exact h.checksum

theorem faithful_quiet {all : List Byte} {s s' : State} (h : Faithful all s []) (hq : Quiet s s') (hc : content s.input = content s'.input) : Faithful all s' [] := by
  refine ⟨?_, ?_, stats_quiet h.stats hq⟩
  · rw [hq.out, ← hc]; exact h.data
  · rw [hq.output]; exact h.willing

theorem faithful_read {all : List Byte} {s s' : State} {bs : List Byte} (h : Faithful all s []) (hq : Read bs s s') : Faithful all s' bs := by
  have ht := h.stats.total
  have hf := h.stats.fletcher
  have hd := h.data
  rw [List.append_nil] at ht hf hd
  refine ⟨?_, ?_, ?_, ?_, ?_⟩
  · rw [hq.out, List.append_assoc, ← hq.input]; exact hd
  · rw [hq.output]; exact h.willing
  · rw [hq.out, hq.total, ht, List.length_append, BitVec.ofNat_add]
  · rw [hq.out, hq.fletcher, hf, fletcher_append]
  · rw [hq.out, hq.checksum, hf, fletcher_append, if_neg (fun h => hq.some_ (List.append_eq_nil_iff.mp h).2)]

/-- The whole run, with a willing reader. -/
theorem loop_faithful {w : World} {block : BitVec 64} (hb : 0 < block.toNat) (hb' : block.toNat < 2 ^ 63) (requests turns : Nat) (all : List Byte) : ∀ s, block.toNat ≤ s.buffer.length → Faithful all s [] →
    ∃ s' pending, (loop w block requests turns s).state = some s' ∧ Stats s' pending ∧ (s'.out ++ pending) <+: all ∧
      (∀ n t, loop w block requests turns s = .exit n t → pending = [] ∧ (n = 0 ∨ n = 3) ∧ (n = 0 → s'.out = all)) := by
  induction turns with
  | zero => intro s _ h; exact ⟨s, [], rfl, h.stats, ⟨_, h.data.symm⟩, fun n t hn => by cases hn⟩
  | succ turns ih =>
    intro s hbuf h
    unfold loop
    rcases turn_cases w block requests s hb hb' hbuf with ⟨s', h1, h2, h3⟩ | ⟨s', h1, h2, h3⟩ | ⟨s', h1 | h1, h2, h3⟩ | ⟨bs, s', h1, h2, h3⟩ | ⟨bs, s1, h1, h2, h3⟩
    · rw [h1]
      have hf := faithful_quiet h h2 h3
      exact ⟨s', [], rfl, hf.stats, ⟨_, hf.data.symm⟩, fun n t hn => by cases hn⟩
    · rw [h1]
      have hd := h.data
      rw [h3, List.append_nil] at hd
      have hd' : all = s'.out ++ [] := by rw [h2.out]; exact hd
      refine ⟨s', [], rfl, stats_quiet h.stats h2, ⟨[], by rw [← hd', List.append_nil]⟩, fun n t hn => ?_⟩
      cases hn
      exact ⟨rfl, Or.inl rfl, fun _ => by rw [hd', List.append_nil]⟩
    · rw [h1]; exact ih s' (by rw [h2.buffer]; exact hbuf) (faithful_quiet h h2 h3)
    · rw [h1]
      have hf := faithful_quiet h h2 h3
      exact ⟨s', [], rfl, hf.stats, ⟨_, hf.data.symm⟩, fun n t hn => by cases hn; exact ⟨rfl, Or.inr rfl, fun h => by cases h⟩⟩
    · rw [h1]
      have hf := faithful_read h h3
      exact ⟨s', bs, rfl, hf.stats, ⟨_, hf.data.symm⟩, fun n t hn => by cases hn⟩
    · obtain ⟨s0, hread, r, sh, hr, hq, rfl⟩ := h2
      have hf := faithful_read h hread
      have hbuf' : block.toNat ≤ s0.buffer.length := by rw [hread.buffer]; exact hbuf
      have hpos : 0 < bs.length := List.length_pos_iff.mpr hread.some_
      rcases h3 with h3 | ⟨p, hp, h3⟩
      · rw [h3]
        exact ⟨_, bs, rfl, ⟨hf.stats.total, hf.stats.fletcher, hf.stats.checksum⟩, ⟨_, hf.data.symm⟩, fun n t hn => by cases hn⟩
      · have hn : (BitVec.ofNat 64 bs.length).toNat = bs.length := by rw [BitVec.toNat_ofNat]; omega
        have hi : (BitVec.ofNat 64 bs.length).toInt = (bs.length : Int) := by rw [Fd.toInt_small _ (by omega), hn]
        have hp : Fd.writeLoop (BitVec.ofNat 64 bs.length).toInt s0.buffer s0.output 0 (BitVec.ofNat 64 bs.length).toNat 0 = .done p := hp
        rw [hi, hn] at hp
        rcases write_willing s0.buffer bs.length s0.output 0 bs.length 0 hf.willing (by omega) hpos (by omega) with hw | ⟨p', hw, p1, p2, p3⟩
        · rw [show ((0 : Nat) : Int) = 0 from rfl] at hw
          rw [hw] at hp
          cases hp
        · rw [show ((0 : Nat) : Int) = 0 from rfl] at hw
          rw [hw] at hp
          cases hp
          rw [List.drop_zero, hread.bytes] at p2
          rw [if_pos (by omega)] at h3
          rw [h3]
          apply ih
          · exact hbuf'
          · refine ⟨?_, p3, ?_, ?_, ?_⟩
            · show all = (s0.out ++ p.out ++ []) ++ content s0.input
              rw [p2, List.append_nil]; exact hf.data
            · show s0.total = BitVec.ofNat 64 (s0.out ++ p.out ++ []).length
              rw [p2, List.append_nil]; exact hf.stats.total
            · show s0.fletcher = (Fletcher.fletcher16 (s0.out ++ p.out ++ []) ⟨0, 0⟩).2
              rw [p2, List.append_nil]; exact hf.stats.fletcher
            · show s0.checksum = if s0.out ++ p.out ++ [] = [] then 0 else (Fletcher.fletcher16 (s0.out ++ p.out ++ []) ⟨0, 0⟩).1
              rw [p2, List.append_nil]; exact hf.stats.checksum

end Diminuto.ShaperTool
