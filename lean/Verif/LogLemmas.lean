import Verif.LogSpec
import Verif.NumberLemmas
import Verif.NumberProps
import Verif.SectionProps

/-!
# Lemmas: Log
-/

namespace Diminuto.Log
open Number (Reads strtoll scan scan_iff)
open Section (Part Whole Serial)

theorem strtoll_reads {s : List Byte} {n : Nat} {r : List Byte} (h : Reads s false n r) (hn : n < 2 ^ 63) : strtoll s = ((n : Int), r, none) := by
  have := (scan_iff s false n r).mpr h
  simp [strtoll, this]; omega

theorem strtoll_none {s : List Byte} (h : ∀ g n r, ¬ Reads s g n r) : strtoll s = (0, s, none) := by
  cases hs : scan s with
  | none => simp [strtoll, hs]
  | some x =>
    obtain ⟨g, n, r⟩ := x
    exact absurd ((scan_iff s g n r).mp hs) (h g n r)

/-- If a string is accepted, there was a number or nothing, and it is what the value says. -/
theorem strtoll_inv {s : List Byte} {v : Int} {r : List Byte} (h : (strtoll s).1 = v) (hr : (strtoll s).2.1 = r) :
    (v = 0 ∧ r = s ∧ ∀ g n r, ¬ Reads s g n r) ∨ (∃ n, Reads s false n r ∧ v = min n (2 ^ 63 - 1 : Nat)) ∨ ∃ n, Reads s true n r ∧ v ≤ 0 ∧ (v = 0 → n = 0) := by
  cases hs : scan s with
  | none =>
    simp [strtoll, hs] at h hr
    refine Or.inl ⟨h.symm, hr.symm, fun g n r hg => ?_⟩
    rw [(scan_iff s g n r).mpr hg] at hs; cases hs
  | some x =>
    obtain ⟨g, n, q⟩ := x
    have hg := (scan_iff s g n q).mp hs
    cases g with
    | false =>
      right; left
      simp only [strtoll, hs, Bool.false_eq_true, if_false] at h hr
      by_cases hn : n < 2 ^ 63
      · rw [if_pos hn] at h hr
        refine ⟨n, hr ▸ hg, ?_⟩
        rw [← h, Nat.min_eq_left (by omega)]
      · rw [if_neg hn] at h hr
        refine ⟨n, hr ▸ hg, ?_⟩
        rw [← h, Nat.min_eq_right (by omega)]
        rfl
    | true =>
      right; right
      simp only [strtoll, hs, if_true] at h hr
      by_cases hn : n ≤ 2 ^ 63
      · rw [if_pos hn] at h hr
        refine ⟨n, hr ▸ hg, by omega, by omega⟩
      · rw [if_neg hn] at h hr
        refine ⟨n, hr ▸ hg, ?_, ?_⟩ <;> · simp only [] at h; omega

theorem line_of {l f : List Byte} (h : FirstLine l f) (hl : f.length ≤ 79) (h0 : 0#8 ∉ f) : line l = f ∨ line l = f ++ [10#8] := by
  obtain ⟨hf, h⟩ := h
  have tw : ∀ (f r : List Byte) (c : Byte), c ∉ f → (f ++ c :: r).takeWhile (· ≠ c) = f := by
    intro f r c hc
    induction f with
    | nil => simp
    | cons a f ih =>
      simp only [List.mem_cons, not_or] at hc
      simp [Ne.symm hc.1]
      simpa using ih hc.2
  have tw' : ∀ (f : List Byte) (c : Byte), c ∉ f → f.takeWhile (· ≠ c) = f := by
    intro f c hc
    induction f with
    | nil => simp
    | cons a f ih =>
      simp only [List.mem_cons, not_or] at hc
      simp [Ne.symm hc.1]
      simpa using ih hc.2
  rcases h with rfl | ⟨rest, rfl⟩
  · left
    unfold line
    rw [tw' _ _ hf, if_neg hf, List.append_nil, List.take_of_length_le (by omega), tw' _ _ h0]
  · right
    unfold line
    rw [tw _ _ _ hf, if_pos (by simp), List.take_of_length_le (by simp; omega), tw']
    simp [h0]

/-- A number in the line is a number in the line with the newline. -/
theorem reads_newline {f r : List Byte} {g : Bool} {n : Nat} (h : Reads f g n r) : Reads (f ++ [10#8]) g n (r ++ [10#8]) := by
  obtain ⟨w, gg, t, base, rfl, hw, hg, ht, he, ha⟩ := h
  have nd : ∀ base v, ¬ Number.IsDigit base 10#8 v := by
    rintro base v ⟨-, ⟨-, h⟩ | ⟨-, h | h⟩⟩ <;> simp at h <;> omega
  refine ⟨w, gg, t, base, by simp, hw, hg, ht, ?_, ?_⟩
  · intro b u v hb
    cases r with
    | nil => simp at hb; rw [← hb.1]; exact nd base v
    | cons c r => simp at hb; exact hb.1 ▸ he c r v rfl
  · intro hs x y u v hr hx
    cases r with
    | nil => simp at hr
    | cons c r =>
      cases r with
      | nil => simp at hr; rw [← hr.2.1]; exact nd 16 v
      | cons d r => simp at hr; exact ha hs x y r v (by rw [hr.1, hr.2.1]) hx

theorem assemble_eq (size : Nat) (hs : 2 ≤ size) (header text : List Byte) (hn : header ++ text ≠ []) :
    assemble size header text = some (if size - 1 ≤ (header ++ text).length then ((header ++ text).take (size - 2)) ++ [10#8]
      else if (header ++ text).getLast? ≠ some 10#8 then header ++ text ++ [10#8] else header ++ text) := by
  have e1 : header.take (size - 1) ++ text.take (size - (header.take (size - 1)).length - 1) = (header ++ text).take (size - 1) := by
    rw [List.take_append, List.length_take]
    congr 2
    omega
  have e2 : (header.take (size - 1)).length + (text.take (size - (header.take (size - 1)).length - 1)).length = min (size - 1) (header ++ text).length := by
    rw [← List.length_append, e1, List.length_take]
  have hp : 0 < (header ++ text).length := List.length_pos_iff.mpr hn
  generalize hN : (header ++ text).length = N at *
  have e3 : size - (header.take (size - 1)).length - (text.take (size - (header.take (size - 1)).length - 1)).length = size - min (size - 1) N := by omega
  simp only [assemble]
  rw [e1, e2, e3]
  by_cases hl : size - 1 ≤ N
  · rw [Nat.min_eq_left hl, if_pos (by omega), if_neg (by omega), if_pos hl, List.take_take, Nat.min_eq_left (by omega)]
    rfl
  · rw [Nat.min_eq_right (by omega), if_neg (by omega), if_neg (by omega), if_neg hl, List.take_of_length_le (by omega)]
    have : (header ++ text)[N - 1]? = (header ++ text).getLast? := by rw [List.getLast?_eq_getElem?, hN]
    rw [this]
    split
    · rw [if_pos (by omega)]
    · rfl

theorem take_ended {l : List Byte} (h : l.getLast? = some 10#8) : l.take (l.length - 1) ++ [10#8] = l := by
  rw [← List.dropLast_eq_take]
  rcases List.eq_nil_or_concat l with rfl | ⟨k, b, rfl⟩
  · simp at h
  · simp at h; simp [h]

/-- A turn of the loop when the kernel has taken something, but not more than there was. -/
theorem turn_took {σ : Type} {k : Kernel σ} {d : List Byte} {s s' : σ} {lost n : Nat} {e : Bool} (h : k.write d s = ((n : Int), e, s')) (h0 : 0 < n) (hn : n ≤ d.length) (hd : d.length < 2 ^ 31) :
    turn k d (s, lost) = (if n = d.length then .inr () else .inl (d.drop n), (s', lost)) := by
  have t1 : (BitVec.ofInt 32 (n : Int)).toNat = n := by rw [BitVec.ofInt_natCast, BitVec.toNat_ofNat]; omega
  have t2 : (BitVec.ofInt 32 (n : Int)).toInt = n := by rw [BitVec.toInt_eq_toNat_of_lt (by omega), t1]
  have t3 : ((BitVec.ofInt 32 (n : Int)).signExtend 64).toNat = n := by
    rw [BitVec.signExtend_eq_setWidth_of_msb_false (by rw [BitVec.msb_eq_false_iff_two_mul_lt]; omega), BitVec.toNat_setWidth, t1]; omega
  unfold turn
  simp only [h]
  rw [if_neg (fun hz => by have := congrArg BitVec.toNat hz; rw [t1] at this; simp at this; omega)]
  rw [if_neg (by rw [gt_iff_lt, BitVec.lt_def, t3, BitVec.toNat_ofNat]; omega), if_pos (by omega), t1]
  by_cases hl : n = d.length
  · rw [if_pos hl, if_pos (by simp; omega)]
  · rw [if_neg hl, if_neg (by simp; omega)]

theorem turn_zero {σ : Type} {k : Kernel σ} {d : List Byte} {s s' : σ} {lost : Nat} {e : Bool} (h : k.write d s = (0, e, s')) : turn k d (s, lost) = (.inr (), (s', lost + 1)) := by
  simp [turn, h]

/-- A failure is taken for more bytes than there were. -/
theorem turn_failed {σ : Type} {k : Kernel σ} {d : List Byte} {s s' : σ} {lost : Nat} {e : Bool} (h : k.write d s = (-1, e, s')) (hd : d.length < 2 ^ 31) :
    turn k d (s, lost) = (.inr (), (s', lost)) := by
  unfold turn
  simp only [h]
  rw [if_neg (by decide), if_pos]
  rw [gt_iff_lt, BitVec.lt_def, BitVec.toNat_ofNat, show ((BitVec.ofInt 32 (-1)).signExtend 64).toNat = 2 ^ 64 - 1 from by decide]
  omega

/-- The three things that can happen in a turn. -/
theorem turn_cases {σ : Type} {k : Kernel σ} {content : σ → List Byte} (hk : Honest k content) {d : List Byte} (hd : d.length < 2 ^ 31) (s : σ) (lost : Nat) :
    (∃ n s', 0 < n ∧ n ≤ d.length ∧ content s' = content s ++ d.take n ∧ turn k d (s, lost) = (if n = d.length then .inr () else .inl (d.drop n), (s', lost))) ∨
    (∃ s', content s' = content s ∧ turn k d (s, lost) = (.inr (), (s', lost + 1))) ∨
    (∃ e s', k.write d s = (-1, e, s') ∧ content s' = content s ∧ turn k d (s, lost) = (.inr (), (s', lost))) := by
  rcases h : k.write d s with ⟨r, e, s'⟩
  rcases hk d s r e s' h with ⟨rfl, hc⟩ | ⟨n, rfl, hn, hc⟩
  · exact Or.inr (Or.inr ⟨e, s', rfl, hc, turn_failed h hd⟩)
  · by_cases h0 : n = 0
    · subst h0
      exact Or.inr (Or.inl ⟨s', by simpa using hc, turn_zero h⟩)
    · exact Or.inl ⟨n, s', by omega, hn, hc, turn_took h (by omega) hn hd⟩

/-- While a message is being written, what has been written and what is left make it up. -/
theorem part_inv {σ : Type} {k : Kernel σ} {content : σ → List Byte} (hk : Honest k content) {d : List Byte} (hd0 : d ≠ []) (hd : d.length < 2 ^ 31) {s x : σ × Nat} {l : List Byte}
    (h : Part (emission k) d s l x) : l ≠ [] ∧ l.length ≤ d.length ∧ x.2 = s.2 ∧ ∃ u, d = u ++ l ∧ content x.1 = content s.1 ++ u := by
  induction h with
  | nil => exact ⟨hd0, Nat.le_refl _, rfl, [], rfl, by simp⟩
  | @more l l' p q hp hq ih =>
    obtain ⟨h1, h2, h3, u, h4, h5⟩ := ih
    have hq : turn k l (p.1, p.2) = (.inl l', q) := hq
    rcases turn_cases hk (by omega : l.length < 2 ^ 31) p.1 p.2 with ⟨n, s', h0, hn, hc, ht⟩ | ⟨s', hc, ht⟩ | ⟨e, s', -, hc, ht⟩
    · rw [ht] at hq
      by_cases hl : n = l.length
      · simp [hl] at hq
      · simp [hl] at hq
        obtain ⟨rfl, rfl⟩ := hq
        refine ⟨by simp; omega, by simp; omega, h3, u ++ l.take n, ?_, ?_⟩
        · rw [List.append_assoc, List.take_append_drop]; exact h4
        · rw [hc, h5, List.append_assoc]
    · rw [ht] at hq; simp at hq
    · rw [ht] at hq; simp at hq

theorem whole_inv {σ : Type} {k : Kernel σ} {content : σ → List Byte} (hk : Honest k content) {d : List Byte} (hd0 : d ≠ []) (hd : d.length < 2 ^ 31) {s x : σ × Nat}
    (h : Whole (emission k) d s () x) : (content x.1 = content s.1 ++ d ∧ x.2 = s.2) ∨
      ∃ u l, d = u ++ l ∧ l ≠ [] ∧ content x.1 = content s.1 ++ u ∧ (x.2 = s.2 + 1 ∨ x.2 = s.2 ∧ ∃ a e b, k.write l a = (-1, e, b)) := by
  obtain ⟨l, p, hp, hq⟩ := h
  obtain ⟨h1, h2, h3, u, h4, h5⟩ := part_inv hk hd0 hd hp
  have hq : turn k l (p.1, p.2) = (.inr (), x) := hq
  rcases turn_cases hk (by omega : l.length < 2 ^ 31) p.1 p.2 with ⟨n, s', h0, hn, hc, ht⟩ | ⟨s', hc, ht⟩ | ⟨e, s', hf, hc, ht⟩
  · rw [ht] at hq
    by_cases hl : n = l.length
    · simp [hl] at hq
      subst hq
      left
      refine ⟨?_, h3⟩
      rw [hc, h5, List.append_assoc, List.take_of_length_le (by omega), ← h4]
    · simp [hl] at hq
  · rw [ht] at hq
    simp at hq
    subst hq
    exact Or.inr ⟨u, l, h4, h1, by rw [hc, h5], Or.inl (by rw [h3])⟩
  · rw [ht] at hq
    simp at hq
    subst hq
    exact Or.inr ⟨u, l, h4, h1, by rw [hc, h5], Or.inr ⟨h3, p.1, e, s', hf⟩⟩

/-- The loop comes to an end. -/
theorem ends {σ : Type} {k : Kernel σ} {content : σ → List Byte} (hk : Honest k content) (d : List Byte) (hd : d.length < 2 ^ 31) (s : σ × Nat) (n : Nat) :
    ∀ (l : List Byte) (p : σ × Nat), l.length = n → l ≠ [] → l.length ≤ d.length → Part (emission k) d s l p → ∃ x, Whole (emission k) d s () x := by
  induction n using Nat.strongRecOn with
  | ind n ih =>
    intro l p hn hl hle hp
    rcases turn_cases hk (by omega : l.length < 2 ^ 31) p.1 p.2 with ⟨m, s', h0, hm, hc, ht⟩ | ⟨s', hc, ht⟩ | ⟨e, s', hf, hc, ht⟩
    · by_cases he : m = l.length
      · rw [if_pos he] at ht
        exact ⟨_, l, p, hp, ht⟩
      · rw [if_neg he] at ht
        refine ih (l.length - m) (by omega) (l.drop m) (s', p.2) (by simp) (by simp; omega) (by simp; omega) (.more hp ht)
    · exact ⟨_, l, p, hp, ht⟩
    · exact ⟨_, l, p, hp, ht⟩

theorem disk_honest : Honest disk Disk.content := by
  intro d s r e s' h
  simp only [disk] at h
  split at h
  · simp only [Prod.mk.injEq] at h
    obtain ⟨rfl, rfl, rfl⟩ := h
    exact Or.inl ⟨rfl, rfl⟩
  · simp only [Prod.mk.injEq] at h
    obtain ⟨rfl, rfl, rfl⟩ := h
    refine Or.inr ⟨min d.length s.chunk, rfl, by omega, ?_⟩
    simp only []
    congr 1
    by_cases hc : s.chunk ≤ d.length
    · rw [Nat.min_eq_right hc]
    · rw [Nat.min_eq_left (by omega), List.take_of_length_le (by omega), List.take_of_length_le (by omega)]

end Diminuto.Log
