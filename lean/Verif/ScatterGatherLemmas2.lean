import Verif.ScatterGatherLemmas

/-!
# Lemmas: the buffers of Scatter/Gather
-/

namespace Diminuto.ScatterGather

open Diminuto.DList Diminuto.Well

variable {N : Nat}

/-- The buffer of a segment. -/
def Segment.buffer (g : Segment) : Buffer := ⟨BitVec.ofNat 64 g.length, g.payload⟩

/-- The length of a segment is right. -/
def Segment.Fit (g : Segment) : Prop := g.length ≤ g.payload.length ∧ g.payload.length < 2 ^ 64

/-- The buffers allocated are those of the segments. -/
structure Mem (data : Fin N → Option Nat) (bufs : Nat → Option Buffer) (role : Fin N → Role) : Prop where
  seg : ∀ n g, role n = .segment g → data n = some g.address ∧ bufs g.address = some g.buffer ∧ g.Fit
  other : ∀ n, (∀ g, role n ≠ .segment g) → data n = none
  uniq : ∀ n g n' g', role n = .segment g → role n' = .segment g' → g.address = g'.address → n = n'
  noleak : ∀ b, bufs b ≠ none → ∃ n g, role n = .segment g ∧ g.address = b

theorem Mem.congr {data : Fin N → Option Nat} {bufs : Nat → Option Buffer} {role role' : Fin N → Role}
    (hm : Mem data bufs role) (h : ∀ n g, role' n = .segment g ↔ role n = .segment g) : Mem data bufs role' where
  seg n g hn := hm.seg n g ((h n g).1 hn)
  other n hn := hm.other n fun g hg => hn g ((h n g).2 hg)
  uniq n g n' g' h1 h2 := hm.uniq n g n' g' ((h n g).1 h1) ((h n' g').1 h2)
  noleak b hb := by
    obtain ⟨n, g, h1, h2⟩ := hm.noleak b hb
    exact ⟨n, g, (h n g).2 h1, h2⟩

theorem Mem.drop {data : Fin N → Option Nat} {bufs : Nat → Option Buffer} {role : Fin N → Role}
    (hm : Mem data bufs role) {n : Fin N} {g : Segment} (hn : role n = .segment g) {R : Role}
    (hR : ∀ g, R ≠ .segment g) :
    Mem (set data n none) (set bufs g.address none) (set role n R) where
  seg n' g' h := by
    unfold set at h ⊢
    split at h
    · exact absurd h (hR g')
    · rename_i hne
      have := hm.seg n' g' h
      rw [if_neg hne, if_neg (fun hc => hne (hm.uniq n' g' n g h hn hc))]
      exact this
  other n' h := by
    unfold set at h ⊢
    split
    · rfl
    · rename_i hne
      rw [if_neg hne] at h
      exact hm.other n' h
  uniq n1 g1 n2 g2 h1 h2 := by
    unfold set at h1 h2
    split at h1
    · exact absurd h1 (hR g1)
    · split at h2
      · exact absurd h2 (hR g2)
      · exact hm.uniq n1 g1 n2 g2 h1 h2
  noleak b hb := by
    unfold set at hb ⊢
    split at hb
    · exact absurd rfl hb
    · rename_i hne
      obtain ⟨n', g', h1, h2⟩ := hm.noleak b hb
      refine ⟨n', g', ?_, h2⟩
      rw [if_neg]
      · exact h1
      · rintro rfl
        rw [h1] at hn
        cases hn
        exact hne h2.symm

theorem Mem.new {data : Fin N → Option Nat} {bufs : Nat → Option Buffer} {role : Fin N → Role}
    (hm : Mem data bufs role) {n : Fin N} {g : Segment} (hn : ∀ g, role n ≠ .segment g)
    (hb : bufs g.address = none) (hf : g.Fit) :
    Mem (set data n (some g.address)) (set bufs g.address (some g.buffer)) (set role n (.segment g)) where
  seg n' g' h := by
    unfold set at h ⊢
    split at h
    · rename_i he
      cases h
      rw [if_pos he, if_pos rfl]
      exact ⟨rfl, rfl, hf⟩
    · rename_i hne
      have := hm.seg n' g' h
      rw [if_neg hne, if_neg]
      · exact this
      · intro hc
        rw [hc, hb] at this
        simp at this
  other n' h := by
    unfold set at h ⊢
    split
    · rename_i he
      rw [if_pos he] at h
      exact absurd rfl (h g)
    · rename_i hne
      rw [if_neg hne] at h
      exact hm.other n' h
  uniq n1 g1 n2 g2 h1 h2 ha := by
    unfold set at h1 h2
    split at h1
    · rename_i e1
      split at h2
      · rename_i e2
        rw [e1, e2]
      · cases h1
        have := (hm.seg n2 g2 h2).2.1
        rw [← ha, hb] at this
        simp at this
    · split at h2
      · cases h2
        have := (hm.seg n1 g1 h1).2.1
        rw [ha, hb] at this
        simp at this
      · exact hm.uniq n1 g1 n2 g2 h1 h2 ha
  noleak b hb' := by
    unfold set at hb' ⊢
    split at hb'
    · rename_i he
      exact ⟨n, g, by simp, he.symm⟩
    · obtain ⟨n', g', h1, h2⟩ := hm.noleak b hb'
      refine ⟨n', g', ?_, h2⟩
      rw [if_neg]
      · exact h1
      · rintro rfl
        exact hn g' h1

theorem Mem.change {data : Fin N → Option Nat} {bufs : Nat → Option Buffer} {role : Fin N → Role}
    (hm : Mem data bufs role) {n : Fin N} {g g1 : Segment} (hn : role n = .segment g)
    (ha : g1.address = g.address) (hf : g1.Fit) :
    Mem data (set bufs g.address (some g1.buffer)) (set role n (.segment g1)) where
  seg n' g' h := by
    unfold set at h ⊢
    split at h
    · rename_i he
      cases h
      rw [if_pos ha, he, ha]
      exact ⟨(hm.seg n g hn).1, rfl, hf⟩
    · rename_i hne
      have := hm.seg n' g' h
      rw [if_neg (fun hc => hne (hm.uniq n' g' n g h hn hc))]
      exact this
  other n' h := by
    unfold set at h
    split at h
    · exact absurd rfl (h g1)
    · exact hm.other n' h
  uniq n1 g1 n2 g2 h1 h2 hg := by
    unfold set at h1 h2
    split at h1
    · rename_i e1
      split at h2
      · rename_i e2
        rw [e1, e2]
      · cases h1
        rw [ha] at hg
        rw [e1]
        exact hm.uniq n g n2 g2 hn h2 hg
    · split at h2
      · rename_i e2
        cases h2
        rw [ha] at hg
        rw [e2]
        exact hm.uniq n1 g1 n g h1 hn hg
      · exact hm.uniq n1 g1 n2 g2 h1 h2 hg
  noleak b hb' := by
    unfold set at hb' ⊢
    split at hb'
    · rename_i he
      exact ⟨n, g1, by simp, by rw [ha, he]⟩
    · rename_i hne
      obtain ⟨n', g', h1, h2⟩ := hm.noleak b hb'
      refine ⟨n', g', ?_, h2⟩
      rw [if_neg]
      · exact h1
      · rintro rfl
        rw [h1] at hn
        cases hn
        exact hne h2.symm

/-! ## The vector -/

/-- The bytes of data of a node in given roles. -/
def dataOf (role : Fin N → Role) (n : Fin N) : List Byte :=
  match role n with
  | .segment s => s.payload.take s.length
  | _ => []

theorem bytes_eq (v : View N) : v.bytes = dataOf v.role := rfl

theorem dataOf_segment {role : Fin N → Role} {n : Fin N} {g : Segment} (h : role n = .segment g) :
    dataOf role n = g.payload.take g.length := by
  unfold dataOf
  rw [h]

/-- What the vector has for a node. -/
def entry (role : Fin N → Role) (n : Fin N) : Nat × BitVec 64 :=
  match role n with
  | .segment s => (s.address, BitVec.ofNat 64 s.length)
  | _ => (0, 0)

theorem entry_segment {role : Fin N → Role} {n : Fin N} {g : Segment} (h : role n = .segment g) :
    entry role n = (g.address, BitVec.ofNat 64 g.length) := by
  unfold entry
  rw [h]

theorem fit_toNat {g : Segment} (h : g.Fit) : (BitVec.ofNat 64 g.length).toNat = g.length := by
  rw [BitVec.toNat_ofNat, Nat.mod_eq_of_lt]
  exact Nat.lt_of_le_of_lt h.1 h.2

theorem count_foldl (l : List (Fin N)) : ∀ n : BitVec 64,
    l.foldl (fun nn _ => nn + 1) n = n + BitVec.ofNat 64 l.length := by
  induction l with
  | nil => intro n; simp
  | cons x l ih =>
    intro n
    rw [List.foldl_cons, ih, List.length_cons, BitVec.ofNat_add, BitVec.add_assoc]
    congr 1
    exact BitVec.add_comm _ _

theorem measureLoop_mem {s : State N} {role : Fin N → Role} (hm : Mem s.data s.bufs role) (l : List (Fin N)) :
    (∀ n ∈ l, ∃ g, role n = .segment g) → ∀ ll : BitVec 64,
      measureLoop s l ll = some (ll + BitVec.ofNat 64 (l.flatMap (dataOf role)).length) := by
  induction l with
  | nil => intro _ ll; simp [measureLoop]
  | cons x l ih =>
    intro hl ll
    obtain ⟨g, hg⟩ := hl x (by simp)
    obtain ⟨h1, h2, h3⟩ := hm.seg x g hg
    unfold measureLoop
    simp only [h1, h2, Option.bind_some]
    rw [ih (fun n hn => hl n (by simp [hn]))]
    rw [List.flatMap_cons, List.length_append, dataOf_segment hg, List.length_take,
      Nat.min_eq_left h3.1, BitVec.ofNat_add, ← BitVec.add_assoc]
    rfl

theorem vectorizeLoop_mem {s : State N} {role : Fin N → Role} (hm : Mem s.data s.bufs role) (l : List (Fin N)) :
    (∀ n ∈ l, ∃ g, role n = .segment g) → ∀ (nn i : Nat) (va : List (Nat × BitVec 64)), nn < 2 ^ 64 →
      i + l.length ≤ nn →
      vectorizeLoop s (BitVec.ofNat 64 nn) l (BitVec.ofNat 64 i) va = some (some (va ++ l.map (entry role))) := by
  induction l with
  | nil => intro _ nn i va _ _; simp [vectorizeLoop]
  | cons x l ih =>
    intro hl nn i va hn hi
    obtain ⟨g, hg⟩ := hl x (by simp)
    obtain ⟨h1, h2, h3⟩ := hm.seg x g hg
    simp only [List.length_cons] at hi
    unfold vectorizeLoop
    rw [if_pos]
    · simp only [h1, h2, Option.bind_some]
      have e : BitVec.ofNat 64 i + 1 = BitVec.ofNat 64 (i + 1) := by rw [BitVec.ofNat_add]; rfl
      rw [e, ih (fun n hn => hl n (by simp [hn])) nn (i + 1) _ hn (by omega)]
      simp [entry_segment hg, Segment.buffer]
    · rw [BitVec.lt_def, BitVec.toNat_ofNat, BitVec.toNat_ofNat, Nat.mod_eq_of_lt, Nat.mod_eq_of_lt] <;> omega

theorem gather_mem {s : State N} {role : Fin N → Role} (hm : Mem s.data s.bufs role) (l : List (Fin N)) :
    (∀ n ∈ l, ∃ g, role n = .segment g) → gather s (l.map (entry role)) = some (l.flatMap (dataOf role)) := by
  induction l with
  | nil => intro _; rfl
  | cons x l ih =>
    intro hl
    obtain ⟨g, hg⟩ := hl x (by simp)
    obtain ⟨h1, h2, h3⟩ := hm.seg x g hg
    rw [List.map_cons, entry_segment hg]
    unfold gather
    simp only [h2, Option.bind_some, Segment.buffer]
    rw [fit_toNat h3, if_pos h3.1, ih (fun n hn => hl n (by simp [hn]))]
    simp [dataOf_segment hg]

theorem room_mem {s : State N} {role : Fin N → Role} (hm : Mem s.data s.bufs role) (l : List (Fin N)) :
    (∀ n ∈ l, ∃ g, role n = .segment g) → room (l.map (entry role)) = (l.flatMap (dataOf role)).length := by
  induction l with
  | nil => intro _; rfl
  | cons x l ih =>
    intro hl
    obtain ⟨g, hg⟩ := hl x (by simp)
    obtain ⟨h1, h2, h3⟩ := hm.seg x g hg
    have := ih (fun n hn => hl n (by simp [hn]))
    unfold room at this ⊢
    rw [List.map_cons, List.map_cons, List.sum_cons, this, entry_segment hg, fit_toNat h3, List.flatMap_cons,
      List.length_append, dataOf_segment hg, List.length_take, Nat.min_eq_left h3.1]

theorem scatter_take (va : List (Nat × BitVec 64)) : ∀ (s : State N) (d : List Byte),
    scatter s va (d.take (room va)) = scatter s va d := by
  induction va with
  | nil => intro s d; rfl
  | cons v va ih =>
    intro s d
    obtain ⟨b, len⟩ := v
    have hr : room ((b, len) :: va) = len.toNat + room va := by simp [room]
    unfold scatter
    rw [hr, List.take_take, Nat.min_eq_left (by omega)]
    have : (d.take (len.toNat + room va)).drop len.toNat = (d.drop len.toNat).take (room va) := by
      rw [List.drop_take, Nat.add_sub_cancel_left]
    simp only [this, ih]

/-- What `received` does, for any list of nodes. -/
def receivedIn (role : Fin N → Role) (l : List (Fin N)) (d : List Byte) : Fin N → Role := fun n =>
  match role n with
  | .segment s =>
    if n ∈ l then .segment (s.receive ((before n l).flatMap (dataOf role)).length d) else .segment s
  | x => x

theorem received_eq (v : View N) (r : Fin N) (d : List Byte) :
    v.received r d = receivedIn v.role (v.queue r) d := rfl

theorem receive_zero (g : Segment) (hf : g.Fit) (d : List Byte) :
    (g.receive 0 d).payload = d.take g.length ++ g.payload.drop (d.take g.length).length := by
  unfold Segment.receive
  simp only []
  apply List.ext_getElem?
  intro i
  rw [List.getElem?_mapIdx, List.getElem?_append]
  simp only [List.length_take, Nat.zero_add]
  have := hf.1
  by_cases h1 : i < g.length
  · by_cases h2 : i < d.length
    · rw [if_pos (by omega)]
      have h3 : i < g.payload.length := by omega
      simp [h1, h2, h3]
    · rw [if_neg (by omega), List.getElem?_drop]
      have h4 : min g.length d.length + (i - min g.length d.length) = i := by omega
      rw [h4]
      simp [h1, h2]
  · rw [if_neg (by omega), List.getElem?_drop]
    have h4 : min g.length d.length + (i - min g.length d.length) = i := by omega
    rw [h4]
    simp [h1]

theorem receive_shift (g : Segment) (a off : Nat) (d : List Byte) :
    g.receive (a + off) d = g.receive off (d.drop a) := by
  unfold Segment.receive
  congr 2
  funext i b
  rw [List.getElem?_drop, Nat.add_assoc]

theorem receive_fit (g : Segment) (off : Nat) (d : List Byte) (hf : g.Fit) : (g.receive off d).Fit := by
  unfold Segment.Fit Segment.receive at *
  simpa using hf

theorem scatter_mem (l : List (Fin N)) : ∀ (s : State N) (role : Fin N → Role) (d : List Byte), l.Nodup →
    Mem s.data s.bufs role → (∀ n ∈ l, ∃ g, role n = .segment g) →
    ∃ s', scatter s (l.map (entry role)) d = some s' ∧ s'.heap = s.heap ∧ s'.data = s.data ∧
      Mem s'.data s'.bufs (receivedIn role l d) := by
  induction l with
  | nil =>
    intro s role d _ hm _
    refine ⟨s, rfl, rfl, rfl, hm.congr ?_⟩
    intro n g
    unfold receivedIn
    cases role n <;> simp
  | cons x l ih =>
    intro s role d hnd hm hl
    obtain ⟨g, hg⟩ := hl x (by simp)
    obtain ⟨h1, h2, h3⟩ := hm.seg x g hg
    rw [List.nodup_cons] at hnd
    have hlen : (d.take g.length).length ≤ g.payload.length := by
      rw [List.length_take]
      have := h3.1
      omega
    -- after the first segment
    have hm1 := hm.change (g1 := g.receive 0 d) hg rfl (receive_fit g 0 d h3)
    have hrole : ∀ n ∈ l, set role x (.segment (g.receive 0 d)) n = role n := by
      intro n hn
      unfold set
      rw [if_neg (by rintro rfl; exact hnd.1 hn)]
    obtain ⟨s', e, i1, i2, i3⟩ := ih { s with bufs := set s.bufs g.address (some (g.receive 0 d).buffer) }
      (set role x (.segment (g.receive 0 d))) (d.drop g.length) hnd.2 hm1
      (fun n hn => by rw [hrole n hn]; exact hl n (by simp [hn]))
    have hent : l.map (entry (set role x (.segment (g.receive 0 d)))) = l.map (entry role) := by
      apply List.map_congr_left
      intro n hn
      unfold entry
      rw [hrole n hn]
    rw [hent] at e
    refine ⟨s', ?_, i1, i2, ?_⟩
    · rw [List.map_cons, entry_segment hg]
      unfold scatter
      simp only [h2, Option.bind_some, Segment.buffer]
      rw [fit_toNat h3, if_pos hlen, ← e]
      congr 2
      funext y
      unfold set
      by_cases hy : y = g.address
      · rw [if_pos hy, if_pos hy]
        unfold Segment.buffer
        rw [receive_zero g h3]
        rfl
      · rw [if_neg hy, if_neg hy]
    · apply i3.congr
      intro n g'
      have key : receivedIn role (x :: l) d n = receivedIn (set role x (.segment (g.receive 0 d))) l (d.drop g.length) n := by
        unfold receivedIn
        by_cases hx : n = x
        · subst hx
          simp only [hg, set, if_true, before]
          rw [if_pos (by simp), if_neg hnd.1]
          simp
        · have e1 : set role x (.segment (g.receive 0 d)) n = role n := by
            unfold set
            rw [if_neg hx]
          rw [e1]
          cases hr : role n with
          | segment s =>
            simp only []
            by_cases hn : n ∈ l
            · rw [if_pos (by simp [hn]), if_pos hn]
              have e2 : before n (x :: l) = x :: before n l := by
                rw [before, if_neg (fun hc => hx hc.symm)]
              have e3 : (before n l).flatMap (dataOf (set role x (.segment (g.receive 0 d)))) =
                  (before n l).flatMap (dataOf role) := by
                apply List.flatMap_congr
                intro m hm'
                have : m ∈ l := by
                  clear ih hm hl hrole hent e i3 hn e2 hnd
                  induction l with
                  | nil => simp [before] at hm'
                  | cons z l ih2 =>
                    unfold before at hm'
                    split at hm'
                    · simp at hm'
                    · rcases List.mem_cons.1 hm' with h | h
                      · simp [h]
                      · exact List.mem_cons_of_mem _ (ih2 h)
                unfold dataOf
                rw [hrole m this]
              rw [e2, e3, List.flatMap_cons, List.length_append, dataOf_segment hg, List.length_take,
                Nat.min_eq_left h3.1, receive_shift]
            · rw [if_neg (by simp [hn, hx]), if_neg hn]
          | _ => rfl
      rw [key]

end Diminuto.ScatterGather
