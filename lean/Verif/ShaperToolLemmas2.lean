import Verif.ShaperToolLemmas
import Verif.FdProps

/-!
# More lemmas for the tool that shapes traffic
-/

namespace Diminuto.ShaperTool

open Diminuto.Fd (Source Sink)
open Diminuto.Throttle (Shaper Ticks Conforms specTat Rel AlarmInv)

/-- Nothing has been read. -/
structure Quiet (s s' : State) : Prop where
  shaper : s'.shaper = s.shaper
  commits : s'.commits = s.commits
  out : s'.out = s.out
  output : s'.output = s.output
  readings : s.readings ≤ s'.readings
  buffer : s'.buffer.length = s.buffer.length
  count : s'.count = s.count
  total : s'.total = s.total
  burst : s'.burst = s.burst
  fletcher : s'.fletcher = s.fletcher
  checksum : s'.checksum = s.checksum

/-- Some bytes have been read. -/
structure Read (bs : List Byte) (s s' : State) : Prop where
  some_ : bs ≠ []
  shaper : s'.shaper = s.shaper
  commits : s'.commits = s.commits
  out : s'.out = s.out
  output : s'.output = s.output
  readings : s.readings ≤ s'.readings
  buffer : s'.buffer.length = s.buffer.length
  bytes : s'.buffer.take bs.length = bs
  count : s'.count = s.count + 1
  total : s'.total = s.total + BitVec.ofNat 64 bs.length
  burst : s'.burst = if BitVec.ofNat 64 bs.length > s.burst then BitVec.ofNat 64 bs.length else s.burst
  fletcher : s'.fletcher = (Fletcher.fletcher16 bs s.fletcher).2
  checksum : s'.checksum = (Fletcher.fletcher16 bs s.fletcher).1
  input : content s.input = bs ++ content s'.input

/-- Some bytes have been read and committed. -/
def Commit (clock : Nat → Nat) (bs : List Byte) (s s' : State) : Prop :=
  ∃ s1, Read bs s s1 ∧ ∃ r sh, s1.readings ≤ r ∧ Throttle.shaperRequest s1.shaper (BitVec.ofNat 64 (clock r)) = (0, sh) ∧
    s' = { s1 with readings := r + 1, shaper := (Throttle.shaperCommitn sh (BitVec.ofNat 64 bs.length)).2, commits := s1.commits ++ [(clock r, bs.length)] }

/-- What a turn of the loop does. -/
theorem turn_cases (w : World) (block : BitVec 64) (requests : Nat) (s : State) (hb : 0 < block.toNat) (hb' : block.toNat < 2 ^ 63) (hm : block.toNat ≤ s.buffer.length) :
    (∃ s', turn w block requests s = .inr (.blocks s') ∧ Quiet s s' ∧ content s.input = content s'.input) ∨
    (∃ s', turn w block requests s = .inr (.exit 0 s') ∧ Quiet s s' ∧ content s.input = []) ∨
    (∃ s', (turn w block requests s = .inl s' ∨ turn w block requests s = .inr (.exit 3 s')) ∧ Quiet s s' ∧ content s.input = content s'.input) ∨
    (∃ bs s', turn w block requests s = .inr (.running s') ∧ bs.length ≤ block.toNat ∧ Read bs s s') ∨
    (∃ bs s1, bs.length ≤ block.toNat ∧ Commit w.clock bs s s1 ∧ (turn w block requests s = .inr (.blocks s1) ∨
      ∃ p, Fd.write s1.output s1.buffer (BitVec.ofNat 64 bs.length) = .done p ∧
        turn w block requests s =
          if p.ret > 0 then .inl { s1 with output := p.kernel, out := s1.out ++ p.out }
          else if p.ret = 0 then .inr (.exit 0 { s1 with output := p.kernel, out := s1.out ++ p.out })
          else .inr (.exit 4 { s1 with output := p.kernel, out := s1.out ++ p.out }))) := by
  have hq : ∀ s : State, Quiet s { s with readings := s.readings + 1, turns := s.turns + 1 } := fun s => ⟨rfl, rfl, rfl, rfl, Nat.le_succ _, rfl, rfl, rfl, rfl, rfl, rfl⟩
  cases hk : s.input with
  | nil =>
    left
    unfold turn
    simp only [hk]
    rw [read_none _ _ hb]
    exact ⟨_, rfl, by simpa only [hk] using hq s, rfl⟩
  | cons e k =>
    obtain ⟨g, hg, hcases⟩ := read_one e k s.buffer block hb hm
    unfold turn
    simp only [hk, hg]
    rcases hcases with ⟨g1, g2, g3⟩ | ⟨g1, g2, g3⟩ | ⟨bs, b1, b2, b3, b4, b5, b6⟩
    · right; left
      rw [if_neg (by omega), if_pos g1]
      exact ⟨_, rfl, ⟨rfl, rfl, rfl, rfl, Nat.le_succ _, by rw [g2], rfl, rfl, rfl, rfl, rfl⟩, g3⟩
    · right; right; left
      rw [if_neg (by omega), if_neg (by omega)]
      refine ⟨{ s with readings := s.readings + 1, turns := s.turns + 1, input := g.kernel, buffer := g.mem }, ?_, ⟨rfl, rfl, rfl, rfl, Nat.le_succ _, by simp only []; rw [g2], rfl, rfl, rfl, rfl, rfl⟩, g3⟩
      split
      · exact Or.inl rfl
      · exact Or.inr rfl
    · right; right; right
      have hpos : 0 < bs.length := List.length_pos_iff.mpr b1
      rw [if_pos (by omega)]
      have hsize : BitVec.ofInt 64 g.ret = BitVec.ofNat 64 bs.length := by rw [b3]; rfl
      have hn : (BitVec.ofNat 64 bs.length).toNat = bs.length := by rw [BitVec.toNat_ofNat]; omega
      simp only [hsize, hn, b4]
      obtain ⟨s1, hs1⟩ : ∃ s1, s1 = ({ s with input := g.kernel, buffer := g.mem, readings := s.readings + 1, turns := s.turns + 1, count := s.count + 1, total := s.total + BitVec.ofNat 64 bs.length, burst := if BitVec.ofNat 64 bs.length > s.burst then BitVec.ofNat 64 bs.length else s.burst, fletcher := (Fletcher.fletcher16 bs s.fletcher).2, checksum := (Fletcher.fletcher16 bs s.fletcher).1 } : State) := ⟨_, rfl⟩
      have hread : Read bs s s1 := by
        subst hs1
        exact ⟨b1, rfl, rfl, rfl, rfl, Nat.le_succ _, b5, b4, rfl, rfl, rfl, rfl, rfl, by rw [hk]; exact b6⟩
      rcases hsh : shape w.clock requests (s.readings + 1) s.shaper with _ | ⟨r, sh⟩
      · left
        simp only []
        exact ⟨bs, s1, by rw [hs1], b2, hread⟩
      · right
        simp only []
        obtain ⟨r1, r2⟩ := shape_spec _ _ _ _ _ _ hsh
        obtain ⟨s2, hs2⟩ : ∃ s2, s2 = ({ s1 with readings := r + 1, shaper := (Throttle.shaperCommitn sh (BitVec.ofNat 64 bs.length)).2, commits := s1.commits ++ [(w.clock r, bs.length)] } : State) := ⟨_, rfl⟩
        have hc : Commit w.clock bs s s2 := ⟨s1, hread, r, sh, by rw [hs1]; exact r1, by rw [hread.shaper]; exact r2, hs2⟩
        refine ⟨bs, s2, b2, hc, ?_⟩
        have ho : s2.output = s.output := by rw [hs2]; exact hread.output
        have hbu : s2.buffer = g.mem := by rw [hs2, hs1]
        have hund := (Fd.fd_write_exact s.output g.mem (BitVec.ofNat 64 bs.length) (BitVec.ofNat 64 bs.length) (by omega) (by omega)).1
        rw [ho, hbu]
        unfold Fd.write
        rcases hw : Fd.writeGeneric s.output g.mem (BitVec.ofNat 64 bs.length) (BitVec.ofNat 64 bs.length) with p | _ | _
        · right
          refine ⟨p, rfl, ?_⟩
          subst hs2 hs1
          rfl
        · left
          subst hs2 hs1
          rfl
        · exact absurd hw hund

end Diminuto.ShaperTool
