import Verif.EchoLemmas
import Verif.EchoDatagramLemmas

/-!
# Lemmas about how the tool for the Internet consumes
-/

namespace Diminuto.Echo

open Diminuto.Fd (Source Sink)
open Diminuto.ShaperTool (content Willing)
open Diminuto.Datagram (Is4 Is6 Says)

variable {σ : Type}

/-- What is received fits into the buffer. -/
def Honest (f : Far σ) (block : BitVec 64) : Prop :=
  ∀ far mem n mem' r far', mem.length = block.toNat → f.receive far mem = .done (n, mem', r, far') → 0 < n → mem'.length = block.toNat ∧ n ≤ block.toNat

/-- What passes, in terms of the functions of the far end. -/
inductive Trace (f : Far σ) (block : BitVec 64) : σ → List Passed → σ → Prop where
  | done (s : σ) : Trace f block s [] s
  | got {s t t' : σ} {l : List Passed} {mem mem' : List Byte} {n : Int} (h : Trace f block s l t) (hm : mem.length = block.toNat) (hr : f.receive t mem = .done (n, mem', true, t')) (hn : 0 < n) :
      Trace f block s (l ++ [.got (mem'.take n.toNat)]) t'
  | gave {s t t' : σ} {l : List Passed} {bs : List Byte} (h : Trace f block s l t) (hb : bs ≠ []) (hl : bs.length ≤ block.toNat) (hs : f.send t bs = .done ((bs.length : Int), t')) :
      Trace f block s (l ++ [.gave bs]) t'

/-- The invariant. -/
structure Inv (f : Far σ) (block : BitVec 64) (far : σ) (source : List Source) (s : Consumer σ) : Prop where
  buffer : s.buffer.length = block.toNat
  trace : ∃ l, Trace f block far l s.far ∧ given l = s.sent ∧ (gotten l).flatten = s.out
  total : s.total = (s.sent.flatten.length : Int) - s.out.length
  opened : s.eof = false → content source = s.sent.flatten ++ content s.source
  closed : s.eof = true → content source = s.sent.flatten

theorem given_snoc_got (l : List Passed) (bs : List Byte) : given (l ++ [.got bs]) = given l := by simp [given]
theorem given_snoc_gave (l : List Passed) (bs : List Byte) : given (l ++ [.gave bs]) = given l ++ [bs] := by simp [given]
theorem gotten_snoc_got (l : List Passed) (bs : List Byte) : gotten (l ++ [.got bs]) = gotten l ++ [bs] := by simp [gotten]
theorem gotten_snoc_gave (l : List Passed) (bs : List Byte) : gotten (l ++ [.gave bs]) = gotten l := by simp [gotten]

theorem event_inv (f : Far σ) (block : BitVec 64) (h0 : 0 < block.toNat) (h63 : block.toNat < 2 ^ 63) (hf : Honest f block) (far : σ) (source : List Source) (e : Ready) (s : Consumer σ) (h : Inv f block far source s) :
    match event f block e s with
    | .running t => Inv f block far source t
    | .exits _ => False
    | .panics => True
    | .blocks => True
    | .undefined => (∃ far mem, mem.length = block.toNat ∧ f.receive far mem = .undefined) ∨ ∃ far bs, bs ≠ [] ∧ bs.length ≤ block.toNat ∧ f.send far bs = .undefined := by
  obtain ⟨l, htr, hgi, hgo⟩ := h.trace
  cases e with
  | sock =>
    unfold event
    cases hr : f.receive s.far s.buffer with
    | undefined => exact Or.inl ⟨_, _, h.buffer, hr⟩
    | blocks => trivial
    | done r =>
      obtain ⟨n, mem, right, far'⟩ := r
      simp only []
      by_cases hn : ¬ n > 0
      · rw [if_pos hn]; trivial
      rw [if_neg hn]
      have hn : 0 < n := by omega
      cases right with
      | false => rw [if_pos (by simp)]; trivial
      | true =>
        rw [if_neg (by simp)]
        obtain ⟨h1, h2⟩ := hf _ _ _ _ _ _ h.buffer hr hn
        have e : n = (n.toNat : Int) := by omega
        obtain ⟨hu, ho⟩ := write_take s.sink mem n.toNat (by omega) (by omega) (by omega)
        rw [e]
        cases hw : Fd.write s.sink mem (BitVec.ofInt 64 (n.toNat : Int)) with
        | undefined => exact absurd hw hu
        | blocks => trivial
        | done p =>
          simp only []
          by_cases hp : p.ret = (n.toNat : Int)
          · rw [if_pos hp]
            have hout := ho p hw hp
            refine ⟨h1, ⟨_, .got htr h.buffer hr hn, ?_, ?_⟩, ?_, h.opened, h.closed⟩
            · rw [given_snoc_got]; exact hgi
            · rw [gotten_snoc_got, List.flatten_append, hgo, hout]; simp
            · show s.total - p.ret = (s.sent.flatten.length : Int) - (s.out ++ p.out).length
              rw [h.total, hp, hout, List.length_append, List.length_take]
              omega
          · rw [if_neg hp]; trivial
  | source =>
    unfold event
    cases he : s.eof with
    | true => rw [if_pos rfl]; exact h
    | false =>
      rw [if_neg (by simp)]
      unfold Fd.read
      cases hin : s.source with
      | nil => rw [ShaperTool.read_none s.buffer block h0]; trivial
      | cons x k =>
        obtain ⟨g, hg, hcase⟩ := ShaperTool.read_one x k s.buffer block h0 (by have := h.buffer; omega)
        rw [hg]
        simp only []
        have hop := h.opened he
        rw [hin] at hop
        rcases hcase with ⟨hr, hm, hc⟩ | ⟨hr, hm, hc⟩ | ⟨bs, hne, hle, hr, htake, hlen, hc⟩
        · rw [if_neg (by omega), if_pos hr]
          refine ⟨by show g.mem.length = _; rw [hm]; exact h.buffer, ⟨l, htr, hgi, hgo⟩, h.total, fun e => (nomatch e), fun _ => ?_⟩
          rw [hop, hc, List.append_nil]
        · rw [if_pos (by omega)]; trivial
        · have hpos : 0 < bs.length := List.length_pos_iff.mpr hne
          rw [if_neg (by omega), if_neg (by omega), hr, Int.toNat_natCast, htake]
          cases hs : f.send s.far bs with
          | undefined => exact Or.inr ⟨_, _, hne, hle, hs⟩
          | blocks => trivial
          | done q =>
            obtain ⟨output, far'⟩ := q
            simp only []
            by_cases hq : output = (bs.length : Int)
            · rw [if_pos hq]
              rw [hq] at hs
              refine ⟨by show g.mem.length = _; rw [hlen]; exact h.buffer, ⟨_, .gave htr hne hle hs, ?_, ?_⟩, ?_, fun _ => ?_, fun e => ?_⟩
              · rw [given_snoc_gave, hgi]
              · rw [gotten_snoc_gave]; exact hgo
              · show s.total + output = ((s.sent ++ [bs]).flatten.length : Int) - s.out.length
                rw [h.total, hq, List.flatten_append, List.length_append]
                simp only [List.flatten_cons, List.flatten_nil, List.append_nil]
                omega
              · show content source = (s.sent ++ [bs]).flatten ++ content g.kernel
                rw [hop, hc, List.flatten_append]; simp
              · exact (nomatch e)
            · rw [if_neg hq]; trivial

theorem events_inv (f : Far σ) (block : BitVec 64) (h0 : 0 < block.toNat) (h63 : block.toNat < 2 ^ 63) (hf : Honest f block) (far : σ) (source : List Source) (es : List Ready) : ∀ (s : Consumer σ), Inv f block far source s →
    match events f block es s with
    | .running t => Inv f block far source t
    | .exits _ => False
    | .panics => True
    | .blocks => True
    | .undefined => (∃ far mem, mem.length = block.toNat ∧ f.receive far mem = .undefined) ∨ ∃ far bs, bs ≠ [] ∧ bs.length ≤ block.toNat ∧ f.send far bs = .undefined := by
  induction es with
  | nil => intro s h; exact h
  | cons e es ih =>
    intro s h
    unfold events
    have := event_inv f block h0 h63 hf far source e s h
    cases hr : event f block e s with
    | running t => rw [hr] at this; exact ih t this
    | exits t => rw [hr] at this; exact this.elim
    | panics => trivial
    | blocks => trivial
    | undefined => rw [hr] at this; exact this

theorem consume_inv (f : Far σ) (block : BitVec 64) (h0 : 0 < block.toNat) (h63 : block.toNat < 2 ^ 63) (hf : Honest f block) (far : σ) (source : List Source) (rs : List (List Ready)) : ∀ (s : Consumer σ), Inv f block far source s →
    match consume f block rs s with
    | .running t => Inv f block far source t ∧ ¬ (t.eof = true ∧ t.sent.flatten.length ≤ t.out.length)
    | .exits t => Inv f block far source t ∧ t.eof = true ∧ t.sent.flatten.length ≤ t.out.length
    | .panics => True
    | .blocks => True
    | .undefined => (∃ far mem, mem.length = block.toNat ∧ f.receive far mem = .undefined) ∨ ∃ far bs, bs ≠ [] ∧ bs.length ≤ block.toNat ∧ f.send far bs = .undefined := by
  have fin : ∀ s : Consumer σ, Inv f block far source s → (¬ s.eof ∨ s.total > 0 ↔ ¬ (s.eof = true ∧ s.sent.flatten.length ≤ s.out.length)) := by
    intro s h
    rw [h.total]
    constructor
    · rintro (h1 | h1) ⟨h2, h3⟩
      · exact h1 h2
      · omega
    · intro h1
      by_cases h2 : s.eof = true
      · right
        have : ¬ s.sent.flatten.length ≤ s.out.length := fun h => h1 ⟨h2, h⟩
        omega
      · exact Or.inl h2
  induction rs with
  | nil =>
    intro s h
    unfold consume
    by_cases hc : ¬ s.eof ∨ s.total > 0
    · rw [if_pos hc]; exact ⟨h, (fin s h).mp hc⟩
    · rw [if_neg hc]; exact ⟨h, Classical.byContradiction fun hx => hc ((fin s h).mpr hx)⟩
  | cons r rs ih =>
    intro s h
    unfold consume
    by_cases hc : ¬ s.eof ∨ s.total > 0
    · rw [if_pos hc]
      have := events_inv f block h0 h63 hf far source r s h
      cases hr : events f block r s with
      | running t => rw [hr] at this; exact ih t this
      | exits t => rw [hr] at this; exact this.elim
      | panics => trivial
      | blocks => trivial
      | undefined => rw [hr] at this; exact this
    · rw [if_neg hc]; exact ⟨h, Classical.byContradiction fun hx => hc ((fin s h).mpr hx)⟩

theorem inv_start (f : Far σ) (block : BitVec 64) (far : σ) (source : List Source) (sink : List Sink) (buffer : List Byte) (hb : buffer.length = block.toNat) :
    Inv f block far source (Consumer.start far source sink buffer) :=
  ⟨hb, ⟨[], .done _, rfl, rfl⟩, rfl, fun _ => rfl, fun h => (nomatch h)⟩

/-! ## A stream -/

theorem stream_receive (block : BitVec 64) (h0 : 0 < block.toNat) (k : List Source × List Sink × List Byte) (mem : List Byte) (hm : mem.length = block.toNat) :
    (k.1 = [] ∧ (stream block).receive k mem = .blocks) ∨ ∃ n mem' k', (stream block).receive k mem = .done (n, mem', true, k') ∧ k'.2 = k.2 ∧
      (0 < n → mem'.length = block.toNat ∧ n ≤ block.toNat ∧ mem'.take n.toNat ≠ [] ∧ content k.1 = mem'.take n.toNat ++ content k'.1) := by
  obtain ⟨i, o, t⟩ := k
  cases i with
  | nil => left; exact ⟨rfl, by unfold stream; simp only []; unfold Fd.read; rw [ShaperTool.read_none mem block h0]; rfl⟩
  | cons x k =>
    right
    obtain ⟨g, hg, hcase⟩ := ShaperTool.read_one x k mem block h0 (by omega)
    refine ⟨g.ret, g.mem, (g.kernel, o, t), ?_, rfl, ?_⟩
    · unfold stream; simp only []; unfold Fd.read; rw [hg]; rfl
    · intro hn
      rcases hcase with ⟨hr, _⟩ | ⟨hr, _⟩ | ⟨bs, hne, hle, hr, htake, hlen, hc⟩
      · omega
      · omega
      · rw [hr, Int.toNat_natCast, htake]
        exact ⟨by omega, by omega, hne, hc⟩

theorem stream_honest (block : BitVec 64) (h0 : 0 < block.toNat) : Honest (stream block) block := by
  intro far mem n mem' r far' hm hr hn
  rcases stream_receive block h0 far mem hm with ⟨_, h⟩ | ⟨n', mem'', k', h, _, h2⟩
  · rw [h] at hr; exact (nomatch hr)
  · rw [h] at hr
    cases hr
    exact ⟨(h2 hn).1, (h2 hn).2.1⟩

theorem stream_send (block : BitVec 64) (h63 : block.toNat < 2 ^ 63) (k : List Source × List Sink × List Byte) (bs : List Byte) (hne : bs ≠ []) (hl : bs.length ≤ block.toNat) (k' : List Source × List Sink × List Byte)
    (h : (stream block).send k bs = .done ((bs.length : Int), k')) : k'.1 = k.1 ∧ k'.2.2 = k.2.2 ++ bs := by
  have hpos : 0 < bs.length := List.length_pos_iff.mpr hne
  obtain ⟨_, ho⟩ := write_take k.2.1 bs bs.length hpos (Nat.le_refl _) (by omega)
  unfold stream at h
  simp only [] at h
  rw [show BitVec.ofNat 64 bs.length = BitVec.ofInt 64 (bs.length : Int) from (BitVec.ofInt_natCast 64 _).symm] at h
  cases hw : Fd.write k.2.1 bs (BitVec.ofInt 64 (bs.length : Int)) with
  | undefined => rw [hw] at h; exact (nomatch h)
  | blocks => rw [hw] at h; exact (nomatch h)
  | done p =>
    rw [hw] at h
    unfold Fd.Outcome.map at h
    simp only [Fd.Outcome.done.injEq, Prod.mk.injEq] at h
    obtain ⟨hr, hk⟩ := h
    rw [← hk]
    refine ⟨rfl, ?_⟩
    show k.2.2 ++ p.out = _
    rw [ho p hw hr, List.take_length]

theorem stream_defined (block : BitVec 64) (h0 : 0 < block.toNat) (h63 : block.toNat < 2 ^ 63) : ¬ ((∃ far mem, mem.length = block.toNat ∧ (stream block).receive far mem = .undefined) ∨ ∃ far bs, bs ≠ [] ∧ bs.length ≤ block.toNat ∧ (stream block).send far bs = .undefined) := by
  rintro (⟨far, mem, hm, h⟩ | ⟨far, bs, hne, hl, h⟩)
  · rcases stream_receive block h0 far mem hm with ⟨_, h'⟩ | ⟨_, _, _, h', _⟩ <;> rw [h'] at h <;> exact (nomatch h)
  · have hpos : 0 < bs.length := List.length_pos_iff.mpr hne
    obtain ⟨hu, _⟩ := write_take far.2.1 bs bs.length hpos (Nat.le_refl _) (by omega)
    unfold stream at h
    simp only [] at h
    rw [show BitVec.ofNat 64 bs.length = BitVec.ofInt 64 (bs.length : Int) from (BitVec.ofInt_natCast 64 _).symm] at h
    cases hw : Fd.write far.2.1 bs (BitVec.ofInt 64 (bs.length : Int)) with
    | undefined => exact hu hw
    | blocks => rw [hw] at h; exact (nomatch h)
    | done p => rw [hw] at h; exact (nomatch h)

theorem Streams.snoc_got {k k1 k2 : List Source} {o o1 bs : List Byte} {l : List Passed} (h : Streams k o l k1 o1) (hc : content k1 = bs ++ content k2) (hb : bs ≠ []) : Streams k o (l ++ [.got bs]) k2 o1 := by
  induction h with
  | done k o => exact .got hc hb (.done _ _)
  | got h' s _ ih => exact .got h' s (ih hc)
  | gave s _ ih => exact .gave s (ih hc)

theorem Streams.snoc_gave {k k1 : List Source} {o o1 bs : List Byte} {l : List Passed} (h : Streams k o l k1 o1) (hb : bs ≠ []) : Streams k o (l ++ [.gave bs]) k1 (o1 ++ bs) := by
  induction h with
  | done k o => exact .gave hb (.done _ _)
  | got h' s _ ih => exact .got h' s ih
  | gave s _ ih => exact .gave s ih

theorem trace_streams (block : BitVec 64) (h0 : 0 < block.toNat) (h63 : block.toNat < 2 ^ 63) {s t : List Source × List Sink × List Byte} {l : List Passed} (h : Trace (stream block) block s l t) : Streams s.1 s.2.2 l t.1 t.2.2 := by
  induction h with
  | done => exact .done _ _
  | @got t t' l mem mem' n h hm hr hn ih =>
    rcases stream_receive block h0 t mem hm with ⟨_, h'⟩ | ⟨n', mem'', k', h', hk, h2⟩
    · rw [h'] at hr; exact (nomatch hr)
    · rw [h'] at hr
      cases hr
      obtain ⟨_, _, h3, h4⟩ := h2 hn
      rw [hk]
      exact ih.snoc_got h4 h3
  | @gave t t' l bs h hb hl hs ih =>
    obtain ⟨h1, h2⟩ := stream_send block h63 t bs hb hl t' hs
    rw [h1, h2]
    exact ih.snoc_gave hb

theorem streams_bytes {k k' : List Source} {o o' : List Byte} {l : List Passed} (h : Streams k o l k' o') : content k = (gotten l).flatten ++ content k' ∧ o' = o ++ (given l).flatten := by
  induction h with
  | done k o => simp [gotten, given]
  | got h s _ ih =>
    obtain ⟨h1, h2⟩ := ih
    constructor
    · rw [h, h1]; simp [gotten]
    · rw [h2]; simp [given]
  | gave s _ ih =>
    obtain ⟨h1, h2⟩ := ih
    constructor
    · rw [h1]; simp [gotten]
    · rw [h2]; simp [given]

theorem read_talkative (k : List Source) (hk : Talkative k) (mem : List Byte) (block : BitVec 64) (hb : 0 < block.toNat) (hm : block.toNat ≤ mem.length) (g : Fd.Got) (hg : Fd.readGeneric k mem 1 block = .done g) :
    0 < g.ret ∧ Talkative g.kernel := by
  cases k with
  | nil => rw [ShaperTool.read_none mem block hb] at hg; exact (nomatch hg)
  | cons e k =>
    obtain ⟨b, bs, rfl⟩ := hk e (List.mem_cons_self ..)
    have hk' : Talkative k := fun x hx => hk x (List.mem_cons_of_mem _ hx)
    have h1 : (1 : BitVec 64).toInt = 1 := by decide
    unfold Fd.readGeneric Fd.readLoop at hg
    rw [if_pos hb] at hg
    simp only [Fd.sysRead] at hg
    rw [if_neg (by simp)] at hg
    by_cases hl : (b :: bs).length ≤ block.toNat
    · rw [if_pos hl] at hg
      simp only [Fd.store] at hg
      rw [if_pos (by omega)] at hg
      simp only [] at hg
      rw [if_pos (Or.inl (by rw [h1]; simp only [List.length_cons]; omega))] at hg
      cases hg
      refine ⟨?_, hk'⟩
      show (0 : Int) < 0 + ((b :: bs).length : Nat)
      simp only [List.length_cons]; omega
    · rw [if_neg hl] at hg
      simp only [Fd.store] at hg
      rw [if_pos (by rw [List.length_take]; omega)] at hg
      simp only [] at hg
      rw [if_pos (Or.inr (by rw [List.length_take]; omega))] at hg
      cases hg
      refine ⟨?_, ?_⟩
      · show (0 : Int) < 0 + (((b :: bs).take block.toNat).length : Nat)
        rw [List.length_take]; omega
      · intro x hx
        have hx : x ∈ Source.data ((b :: bs).drop block.toNat) :: k := hx
        rcases List.mem_cons.mp hx with rfl | hx
        · cases hd : (b :: bs).drop block.toNat with
          | nil => have := congrArg List.length hd; rw [List.length_drop, List.length_nil] at this; omega
          | cons c cs => exact ⟨c, cs, rfl⟩
        · exact hk' x hx

/-- Nobody misbehaves. -/
structure Nice (block : BitVec 64) (s : Consumer (List Source × List Sink × List Byte)) : Prop where
  buffer : s.buffer.length = block.toNat
  talks : Talkative s.far.1
  takes : Willing s.far.2.1
  sink : Willing s.sink
  source : s.eof = false → Source.error ∉ s.source

theorem event_nice (block : BitVec 64) (h0 : 0 < block.toNat) (h63 : block.toNat < 2 ^ 63) (e : Ready) (s : Consumer (List Source × List Sink × List Byte)) (h : Nice block s) :
    match event (stream block) block e s with
    | .running t => Nice block t
    | .panics => False
    | _ => True := by
  cases e with
  | sock =>
    unfold event
    rcases stream_receive block h0 s.far s.buffer h.buffer with ⟨_, hb⟩ | ⟨n, mem, k', hd, hk, h2⟩
    · rw [hb]; trivial
    · rw [hd]
      have hd' := hd
      unfold stream at hd'
      simp only [] at hd'
      unfold Fd.read at hd'
      cases hg : Fd.readGeneric s.far.1 s.buffer 1 block with
      | undefined => rw [hg] at hd'; exact (nomatch hd')
      | blocks => rw [hg] at hd'; exact (nomatch hd')
      | done g =>
        rw [hg] at hd'
        obtain ⟨hn, ht⟩ := read_talkative s.far.1 h.talks s.buffer block h0 (by have := h.buffer; omega) g hg
        unfold Fd.Outcome.map at hd'
        simp only [Fd.Outcome.done.injEq, Prod.mk.injEq] at hd'
        obtain ⟨e1, _, _, e2⟩ := hd'
        rw [e1] at hn
        obtain ⟨h3, h4, _, _⟩ := h2 hn
        simp only []
        rw [if_neg (by omega), if_neg (by simp)]
        have e : n = (n.toNat : Int) := by omega
        rw [e]
        rcases write_polite s.sink mem n.toNat (by omega) (by omega) (by omega) h.sink with hx | ⟨p, hp, hr, hw⟩
        · rw [hx]; trivial
        · rw [hp]
          simp only []
          rw [if_pos hr]
          exact ⟨h3, by rw [← e2]; exact ht, by show Willing k'.2.1; rw [hk]; exact h.takes, hw, h.source⟩
  | source =>
    unfold event
    cases he : s.eof with
    | true => rw [if_pos rfl]; exact h
    | false =>
      rw [if_neg (by simp)]
      unfold Fd.read
      cases hin : s.source with
      | nil => rw [ShaperTool.read_none s.buffer block h0]; trivial
      | cons x k =>
        have hb := h.buffer
        obtain ⟨g, hg, hcase⟩ := ShaperTool.read_one x k s.buffer block h0 (by omega)
        have herr := Metertool.read_errors x k s.buffer block h0 (by omega) g hg
        have hs := h.source he
        rw [hin] at hs
        rw [hg]
        simp only []
        rcases hcase with ⟨hr, hm, hc⟩ | ⟨hr, hm, hc⟩ | ⟨bs, hne, hle, hr, htake, hlen, hc⟩
        · rw [if_neg (by omega), if_pos hr]
          exact ⟨by show g.mem.length = _; rw [hm]; exact hb, h.talks, h.takes, h.sink, fun e => (nomatch e)⟩
        · exact absurd (by rw [herr.2 (by omega)]; exact List.mem_cons_self ..) hs
        · have hpos : 0 < bs.length := List.length_pos_iff.mpr hne
          rw [if_neg (by omega), if_neg (by omega), hr, Int.toNat_natCast, htake]
          unfold stream
          simp only []
          rw [show BitVec.ofNat 64 bs.length = BitVec.ofInt 64 (bs.length : Int) from (BitVec.ofInt_natCast 64 _).symm]
          rcases write_polite s.far.2.1 bs bs.length hpos (Nat.le_refl _) (by omega) h.takes with hx | ⟨p, hp, hr', hw⟩
          · rw [hx]; trivial
          · rw [hp]
            unfold Fd.Outcome.map
            simp only []
            rw [if_pos hr']
            exact ⟨by show g.mem.length = _; omega, h.talks, hw, h.sink, fun _ hx => hs (herr.1 hx)⟩

theorem events_nice (block : BitVec 64) (h0 : 0 < block.toNat) (h63 : block.toNat < 2 ^ 63) (es : List Ready) : ∀ (s : Consumer (List Source × List Sink × List Byte)), Nice block s →
    match events (stream block) block es s with
    | .running t => Nice block t
    | .panics => False
    | _ => True := by
  induction es with
  | nil => intro s h; exact h
  | cons e es ih =>
    intro s h
    unfold events
    have := event_nice block h0 h63 e s h
    cases hr : event (stream block) block e s with
    | running t => rw [hr] at this; exact ih t this
    | exits t => trivial
    | panics => rw [hr] at this; exact this.elim
    | blocks => trivial
    | undefined => trivial

theorem consume_nice (block : BitVec 64) (h0 : 0 < block.toNat) (h63 : block.toNat < 2 ^ 63) (rs : List (List Ready)) : ∀ (s : Consumer (List Source × List Sink × List Byte)), Nice block s → consume (stream block) block rs s ≠ .panics := by
  induction rs with
  | nil =>
    intro s h
    unfold consume
    split <;> exact fun e => (nomatch e)
  | cons r rs ih =>
    intro s h
    unfold consume
    split
    · have := events_nice block h0 h63 r s h
      cases hr : events (stream block) block r s with
      | running t => rw [hr] at this; exact ih t this
      | exits t => exact fun e => (nomatch e)
      | panics => rw [hr] at this; exact this.elim
      | blocks => exact fun e => (nomatch e)
      | undefined => exact fun e => (nomatch e)
    · exact fun e => (nomatch e)

/-! ## Datagrams -/

theorem store_length {mem bs mem' : List Byte} (h : Fd.store mem 0 bs = some mem') : mem'.length = mem.length ∧ mem'.take bs.length = bs ∧ bs.length ≤ mem.length := by
  unfold Fd.store at h
  split at h
  · rename_i hle
    cases h
    simp only [List.take_zero, List.nil_append, Nat.zero_add] at *
    refine ⟨by simp; omega, ?_, hle⟩
    rw [List.take_left']
    rfl
  · exact (nomatch h)

theorem store_fits {mem bs : List Byte} (h : bs.length ≤ mem.length) : Fd.store mem 0 bs ≠ none := by
  unfold Fd.store
  rw [if_pos (by omega)]
  simp

theorem datagrams4_receive (w : Datagram.World σ) (hw : Sane w) (le : Bool) (fd : Int) (block : BitVec 64) (server : BitVec 32) (rendezvous : BitVec 16) (hp : rendezvous ≠ 0) (s : σ) (mem : List Byte) (hm : mem.length = block.toNat) :
    ∃ n mem' r s', (datagrams4 w le fd block.toNat server rendezvous).receive s mem = .done (n, mem', r, s') ∧
      (0 < n → mem'.length = block.toNat ∧ n ≤ block.toNat ∧ (r = true → ∃ k a, w.recvfrom fd block.toNat 0 s = (.ok k, s') ∧ k.data ≠ [] ∧ Is4 k.name a rendezvous.toNat ∧ mem'.take n.toNat = k.data)) := by
  cases hr : w.recvfrom fd block.toNat 0 s with
  | mk res s1 =>
  cases res with
  | error e =>
    obtain ⟨t, _, h, _⟩ := Datagram.datagram_failed w le fd block.toNat 0 hr
    unfold datagrams4
    simp only []
    rw [h (some 0) (some 0)]
    simp only []
    cases hs : Fd.store mem 0 [] with
    | none => exact absurd hs (store_fits (by simp))
    | some m => exact ⟨_, _, _, _, rfl, fun h => absurd h (by omega)⟩
  | ok k =>
    obtain ⟨ht, hle⟩ := hw.total fd block.toNat s k s1 hr
    have hfit : k.data.length ≤ mem.length := by omega
    by_cases hd : k.data = []
    · have h0 : k.total = 0 := by rw [ht, hd]; rfl
      unfold datagrams4 Datagram.receive4
      simp only []
      rw [hr]
      simp only [h0]
      rw [if_neg (by omega)]
      simp only []
      cases hs : Fd.store mem 0 k.data with
      | none => exact absurd hs (store_fits hfit)
      | some m => exact ⟨_, _, _, _, rfl, fun h => absurd h (by omega)⟩
    · have hpos : 0 < k.total := by rw [ht]; exact List.length_pos_iff.mpr hd
      by_cases hin : ∃ a p, Is4 k.name a p
      · obtain ⟨a, p, hn⟩ := hin
        obtain ⟨x, y, hx, hy, h⟩ := Datagram.datagram_receive4_partial w le fd block.toNat 0 (some 0) (some 0) hr hpos hn
        unfold datagrams4
        simp only []
        rw [h]
        simp only [Option.map_some]
        cases hs : Fd.store mem 0 k.data with
        | none => exact absurd hs (store_fits hfit)
        | some m =>
          obtain ⟨h1, h2, h3⟩ := store_length hs
          refine ⟨_, _, _, _, rfl, fun _ => ⟨by omega, by rw [ht]; omega, fun hr' => ⟨k, a, rfl, hd, ?_, ?_⟩⟩⟩
          · have : y = rendezvous := by simpa using hr'
            rw [← this, hy]; exact hn
          · rw [ht, Int.toNat_natCast]; exact h2
      · have h := (Datagram.datagram_receive_other w le fd block.toNat 0 hr hpos).2.1 (fun a p hx => hin ⟨a, p, hx⟩) 0 0
        unfold datagrams4
        simp only []
        rw [h]
        simp only []
        cases hs : Fd.store mem 0 k.data with
        | none => exact absurd hs (store_fits hfit)
        | some m =>
          obtain ⟨h1, h2, h3⟩ := store_length hs
          refine ⟨_, _, _, _, rfl, fun _ => ⟨by omega, by rw [ht]; omega, fun hr' => ?_⟩⟩
          have : (0 : BitVec 16) = rendezvous := by simpa using hr'
          exact absurd this.symm hp

theorem datagrams6_receive (w : Datagram.World σ) (hw : Sane w) (hw6 : Only6 w) (le : Bool) (fd : Int) (block : BitVec 64) (server : Address.V6) (rendezvous : BitVec 16) (hp : rendezvous ≠ 0) (s : σ) (mem : List Byte) (hm : mem.length = block.toNat) :
    ∃ n mem' r s', (datagrams6 w le fd block.toNat server rendezvous).receive s mem = .done (n, mem', r, s') ∧
      (0 < n → mem'.length = block.toNat ∧ n ≤ block.toNat ∧ (r = true → ∃ k a z, w.recvfrom fd block.toNat 0 s = (.ok k, s') ∧ k.data ≠ [] ∧ Is6 k.name a rendezvous.toNat z ∧ mem'.take n.toNat = k.data)) := by
  cases hr : w.recvfrom fd block.toNat 0 s with
  | mk res s1 =>
  cases res with
  | error e =>
    obtain ⟨t, _, _, h, _⟩ := Datagram.datagram_failed w le fd block.toNat 0 hr
    unfold datagrams6
    simp only []
    rw [h (some Address.UNSPECIFIED) (some 0)]
    simp only []
    cases hs : Fd.store mem 0 [] with
    | none => exact absurd hs (store_fits (by simp))
    | some m => exact ⟨_, _, _, _, rfl, fun h => absurd h (by omega)⟩
  | ok k =>
    obtain ⟨ht, hle⟩ := hw.total fd block.toNat s k s1 hr
    have hfit : k.data.length ≤ mem.length := by omega
    by_cases hd : k.data = []
    · have h0 : k.total = 0 := by rw [ht, hd]; rfl
      unfold datagrams6 Datagram.receive6
      simp only []
      rw [hr]
      simp only [h0]
      rw [if_neg (by omega)]
      simp only []
      cases hs : Fd.store mem 0 k.data with
      | none => exact absurd hs (store_fits hfit)
      | some m => exact ⟨_, _, _, _, rfl, fun h => absurd h (by omega)⟩
    · have hpos : 0 < k.total := by rw [ht]; exact List.length_pos_iff.mpr hd
      by_cases hin : ∃ a p z, Is6 k.name a p z
      · obtain ⟨a, p, z, hn⟩ := hin
        obtain ⟨x, y, hx, hy, h⟩ := Datagram.datagram_receive6_partial w le fd block.toNat 0 (some Address.UNSPECIFIED) (some 0) hr hpos hn
        unfold datagrams6
        simp only []
        rw [h]
        simp only [Option.map_some]
        cases hs : Fd.store mem 0 k.data with
        | none => exact absurd hs (store_fits hfit)
        | some m =>
          obtain ⟨h1, h2, h3⟩ := store_length hs
          refine ⟨_, _, _, _, rfl, fun _ => ⟨by omega, by rw [ht]; omega, fun hr' => ⟨k, a, z, rfl, hd, ?_, ?_⟩⟩⟩
          · have : y = rendezvous := by simpa using hr'
            rw [← this, hy]; exact hn
          · rw [ht, Int.toNat_natCast]; exact h2
      · have h := (Datagram.datagram_receive_other w le fd block.toNat 0 hr hpos).2.2 (fun a p hx => by obtain ⟨q, b, e, _⟩ := hx; exact hw6 _ _ s k s1 hr q b e) (fun a p z hx => hin ⟨a, p, z, hx⟩) Address.UNSPECIFIED 0
        unfold datagrams6
        simp only []
        rw [h]
        simp only []
        cases hs : Fd.store mem 0 k.data with
        | none => exact absurd hs (store_fits hfit)
        | some m =>
          obtain ⟨h1, h2, h3⟩ := store_length hs
          refine ⟨_, _, _, _, rfl, fun _ => ⟨by omega, by rw [ht]; omega, fun hr' => ?_⟩⟩
          have : (0 : BitVec 16) = rendezvous := by simpa using hr'
          exact absurd this.symm hp

theorem Packets4.snoc_got {w : Datagram.World σ} {fd : Int} {block server rendezvous : Nat} {s s1 s2 : σ} {l : List Passed} (h : Packets4 w fd block server rendezvous s l s1) {k : Datagram.Packet} {a : Nat}
    (hr : w.recvfrom fd block 0 s1 = (.ok k, s2)) (hd : k.data ≠ []) (hn : Is4 k.name a rendezvous) : Packets4 w fd block server rendezvous s (l ++ [.got k.data]) s2 := by
  induction h with
  | done s => exact .got hr hd hn (.done _)
  | got h1 h2 h3 _ ih => exact .got h1 h2 h3 (ih hr)
  | gave h1 h2 h3 _ ih => exact .gave h1 h2 h3 (ih hr)

theorem Packets4.snoc_gave {w : Datagram.World σ} {fd : Int} {block server rendezvous : Nat} {s s1 s2 : σ} {l : List Passed} (h : Packets4 w fd block server rendezvous s l s1) {n : Datagram.Name} {bs : List Byte}
    (hd : bs ≠ []) (hn : Is4 n server rendezvous) (hr : w.sendto fd bs 0 (some n) s1 = (.ok bs.length, s2)) : Packets4 w fd block server rendezvous s (l ++ [.gave bs]) s2 := by
  induction h with
  | done s => exact .gave hd hn hr (.done _)
  | got h1 h2 h3 _ ih => exact .got h1 h2 h3 (ih hr)
  | gave h1 h2 h3 _ ih => exact .gave h1 h2 h3 (ih hr)

theorem Packets6.snoc_got {w : Datagram.World σ} {fd : Int} {block : Nat} {server : Fin 8 → Nat} {rendezvous : Nat} {s s1 s2 : σ} {l : List Passed} (h : Packets6 w fd block server rendezvous s l s1) {k : Datagram.Packet} {a : Fin 8 → Nat} {z : Nat}
    (hr : w.recvfrom fd block 0 s1 = (.ok k, s2)) (hd : k.data ≠ []) (hn : Is6 k.name a rendezvous z) : Packets6 w fd block server rendezvous s (l ++ [.got k.data]) s2 := by
  induction h with
  | done s => exact .got hr hd hn (.done _)
  | got h1 h2 h3 _ ih => exact .got h1 h2 h3 (ih hr)
  | gave h1 h2 h3 _ ih => exact .gave h1 h2 h3 (ih hr)

theorem Packets6.snoc_gave {w : Datagram.World σ} {fd : Int} {block : Nat} {server : Fin 8 → Nat} {rendezvous : Nat} {s s1 s2 : σ} {l : List Passed} (h : Packets6 w fd block server rendezvous s l s1) {n : Datagram.Name} {bs : List Byte}
    (hd : bs ≠ []) (hn : Is6 n server rendezvous 0) (hr : w.sendto fd bs 0 (some n) s1 = (.ok bs.length, s2)) : Packets6 w fd block server rendezvous s (l ++ [.gave bs]) s2 := by
  induction h with
  | done s => exact .gave hd hn hr (.done _)
  | got h1 h2 h3 _ ih => exact .got h1 h2 h3 (ih hr)
  | gave h1 h2 h3 _ ih => exact .gave h1 h2 h3 (ih hr)

theorem datagrams4_honest (w : Datagram.World σ) (hw : Sane w) (le : Bool) (fd : Int) (block : BitVec 64) (server : BitVec 32) (rendezvous : BitVec 16) (hp : rendezvous ≠ 0) : Honest (datagrams4 w le fd block.toNat server rendezvous) block := by
  intro far mem n mem' r far' hm hr hn
  obtain ⟨_, _, _, _, h, h2⟩ := datagrams4_receive w hw le fd block server rendezvous hp far mem hm
  rw [h] at hr
  cases hr
  exact ⟨(h2 hn).1, (h2 hn).2.1⟩

theorem datagrams6_honest (w : Datagram.World σ) (hw : Sane w) (hw6 : Only6 w) (le : Bool) (fd : Int) (block : BitVec 64) (server : Address.V6) (rendezvous : BitVec 16) (hp : rendezvous ≠ 0) : Honest (datagrams6 w le fd block.toNat server rendezvous) block := by
  intro far mem n mem' r far' hm hr hn
  obtain ⟨_, _, _, _, h, h2⟩ := datagrams6_receive w hw hw6 le fd block server rendezvous hp far mem hm
  rw [h] at hr
  cases hr
  exact ⟨(h2 hn).1, (h2 hn).2.1⟩

theorem trace_packets4 (w : Datagram.World σ) (hw : Sane w) (le : Bool) (fd : Int) (block : BitVec 64) (server : BitVec 32) (rendezvous : BitVec 16) (hp : rendezvous ≠ 0) {s t : σ} {l : List Passed}
    (h : Trace (datagrams4 w le fd block.toNat server rendezvous) block s l t) : Packets4 w fd block.toNat server.toNat rendezvous.toNat s l t := by
  induction h with
  | done => exact .done _
  | @got t t' l mem mem' n h hm hr hn ih =>
    obtain ⟨_, _, _, _, h', h2⟩ := datagrams4_receive w hw le fd block server rendezvous hp t mem hm
    rw [h'] at hr
    cases hr
    obtain ⟨k, a, h3, h4, h5, h6⟩ := (h2 hn).2.2 rfl
    rw [h6]
    exact ih.snoc_got h3 h4 h5
  | @gave t t' l bs h hb hl hs ih =>
    obtain ⟨dest, _, hdest, hsay⟩ := Datagram.datagram_send4 w le fd bs server rendezvous 0 t
    obtain ⟨n, rfl, hn⟩ := hdest hp
    unfold datagrams4 at hs
    simp only [Fd.Outcome.done.injEq, Prod.mk.injEq] at hs
    have := (says_ok hsay bs.length).mp hs.1
    rw [hs.2] at this
    exact ih.snoc_gave hb hn this

theorem trace_packets6 (w : Datagram.World σ) (hw : Sane w) (hw6 : Only6 w) (le : Bool) (fd : Int) (block : BitVec 64) (server : Address.V6) (rendezvous : BitVec 16) (hp : rendezvous ≠ 0) {s t : σ} {l : List Passed}
    (h : Trace (datagrams6 w le fd block.toNat server rendezvous) block s l t) : Packets6 w fd block.toNat (fun j => (server j).toNat) rendezvous.toNat s l t := by
  induction h with
  | done => exact .done _
  | @got t t' l mem mem' n h hm hr hn ih =>
    obtain ⟨_, _, _, _, h', h2⟩ := datagrams6_receive w hw hw6 le fd block server rendezvous hp t mem hm
    rw [h'] at hr
    cases hr
    obtain ⟨k, a, z, h3, h4, h5, h6⟩ := (h2 hn).2.2 rfl
    rw [h6]
    exact ih.snoc_got h3 h4 h5
  | @gave t t' l bs h hb hl hs ih =>
    obtain ⟨dest, _, hdest, hsay⟩ := Datagram.datagram_send6 w le fd bs server rendezvous 0 t
    obtain ⟨n, rfl, hn⟩ := hdest hp
    unfold datagrams6 at hs
    simp only [Fd.Outcome.done.injEq, Prod.mk.injEq] at hs
    have := (says_ok hsay bs.length).mp hs.1
    rw [hs.2] at this
    exact ih.snoc_gave hb hn this

end Diminuto.Echo
