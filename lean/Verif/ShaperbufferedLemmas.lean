import Verif.ShaperbufferedSpec
import Verif.ShaperToolLemmas4

/-!
# Lemmas for the tool that shapes traffic with the functions of the C library: the input
-/

namespace Diminuto.Shaperbuffered

open Diminuto.Stdio (Stream gather Stop)

/-- What a reading of several bytes has done. -/
structure Gathered (line : Bool) (n : Nat) (items : List (Option Byte)) (bs : List Byte) (stop : Stop) (r : List (Option Byte)) : Prop where
  short : bs.length ≤ n
  all : bytes items = bs ++ bytes r
  fewer : r.length + bs.length ≤ items.length
  ended : stop = .eof → r = []
  failed : stop = .error → none ∈ items
  some_ : 0 < n → stop = .full → bs ≠ []
  sub : ∀ x ∈ r, x ∈ items

theorem gathered (line : Bool) (n : Nat) : ∀ items, Gathered line n items (gather line n items).1 (gather line n items).2.1 (gather line n items).2.2 := by
  induction n with
  | zero => intro items; exact ⟨Nat.le_refl _, by unfold gather; rfl, by unfold gather; exact Nat.le_refl _, by unfold gather; exact nofun, by unfold gather; exact nofun, fun h => absurd h (Nat.lt_irrefl _), by unfold gather; exact fun x h => h⟩
  | succ n ih =>
    intro items
    match items with
    | [] =>
      unfold gather
      exact ⟨Nat.zero_le _, rfl, Nat.le_refl _, fun _ => rfl, nofun, (fun _ h => nomatch h), fun x h => h⟩
    | none :: r =>
      unfold gather
      exact ⟨Nat.zero_le _, rfl, by simp, nofun, fun _ => by simp, (fun _ h => nomatch h), fun x h => List.mem_cons_of_mem _ h⟩
    | some b :: r =>
      unfold gather
      by_cases hl : (line && b = 10#8) = true
      · rw [if_pos hl]
        exact ⟨by simp, rfl, by simp, nofun, nofun, fun _ _ => by simp, fun x h => List.mem_cons_of_mem _ h⟩
      · rw [if_neg hl]
        have h := ih r
        refine ⟨Nat.succ_le_succ h.short, ?_, ?_, h.ended, fun he => List.mem_cons_of_mem _ (h.failed he), fun _ _ => by simp, fun x hx => List.mem_cons_of_mem _ (h.sub x hx)⟩
        · show b :: bytes r = b :: (_ ++ _)
          rw [h.all]
        · have := h.fewer
          show (gather line n r).2.2.length + ((gather line n r).1.length + 1) ≤ r.length + 1
          omega

/-- Once the end of the file has been seen there is nothing more. -/
def Over (s : Stream) : Prop := s.eof = true → s.items = []

/-- What `input` does. -/
inductive Does (block : Nat) (s s' : Stream) : Input → Prop where
  | data (bs : List Byte) (some_ : bs ≠ []) (short : bs.length ≤ block) (all : bytes s.items = bs ++ bytes s'.items) : Does block s s' (.data bs)
  | eof (none_ : bytes s.items = []) : Does block s s' .eof
  | error (failed : none ∈ s.items) : Does block s s' .error

/-- What the rest of the program knows of a stream after `input`. -/
structure After (block : Nat) (s s' : Stream) (i : Input) : Prop where
  does : Does block s s' i
  over : Over s'
  sub : ∀ x ∈ s'.items, x ∈ s.items
  fewer : ∀ bs, i = .data bs → s'.items.length < s.items.length

theorem judge_nil {s : Stream} : judge [] s = if s.eof then .eof else .error := by
  unfold judge
  rw [if_neg (by simp)]

theorem judge_some {bs : List Byte} {s : Stream} (h : bs ≠ []) : judge bs s = .data bs := by
  unfold judge
  rw [if_pos h]

theorem after_over {block : Nat} {s : Stream} (ho : Over s) (he : s.eof = true) : After block s s (judge [] s) := by
  rw [judge_nil, if_pos he]
  exact ⟨.eof (by rw [ho he]; rfl), ho, fun x h => h, nofun⟩

theorem after_gathered {line : Bool} {n block : Nat} {s : Stream} {bs : List Byte} {stop : Stop} {r : List (Option Byte)} (g : Gathered line n s.items bs stop r) (he : ¬ s.eof = true) (hn : 0 < n) (hb : n ≤ block) :
    After block s (s.after stop r) (judge bs (s.after stop r)) := by
  have he : s.eof = false := by simpa using he
  have hover : Over (s.after stop r) := by
    intro h
    have : (s.eof || stop = .eof) = true := h
    rw [he] at this
    exact g.ended (by simpa using this)
  by_cases hbs : bs = []
  · subst hbs
    rw [judge_nil]
    cases stop with
    | full => exact absurd rfl (g.some_ hn rfl)
    | eof =>
      have : (s.after .eof r).eof = true := by show (s.eof || _) = true; simp
      rw [if_pos this]
      exact ⟨.eof (by rw [g.all, g.ended rfl]; rfl), hover, g.sub, nofun⟩
    | error =>
      have : ¬ (s.after .error r).eof = true := by show ¬ (s.eof || _) = true; simp [he]
      rw [if_neg this]
      exact ⟨.error (g.failed rfl), hover, g.sub, nofun⟩
  · rw [judge_some hbs]
    refine ⟨.data bs hbs (Nat.le_trans g.short hb) g.all, hover, g.sub, fun _ _ => ?_⟩
    have := g.fewer
    have : 0 < bs.length := List.length_pos_iff.mpr hbs
    show r.length < _
    omega

theorem after_failed {line : Bool} {n block : Nat} {s : Stream} {bs : List Byte} {r : List (Option Byte)} (g : Gathered line n s.items bs .error r) (he : ¬ s.eof = true) :
    After block s (s.after .error r) (judge [] (s.after .error r)) := by
  have he : s.eof = false := by simpa using he
  rw [judge_nil, if_neg (by show ¬ (s.eof || _) = true; simp [he])]
  exact ⟨.error (g.failed rfl), fun h => by
    have : (s.eof || decide (Stop.error = .eof)) = true := h
    rw [he] at this
    exact absurd this (by decide), g.sub, nofun⟩

theorem fread_after (n block : Nat) (s : Stream) (hn : 0 < n) (hb : n ≤ block) (ho : Over s) : After block s (Stdio.fread n s).2 (judge (Stdio.fread n s).1 (Stdio.fread n s).2) := by
  unfold Stdio.fread
  by_cases he : s.eof = true
  · rw [if_pos he]
    exact after_over ho he
  · rw [if_neg he]
    exact after_gathered (gathered false n s.items) he hn hb

theorem takeWhile_all {bs : List Byte} (h : 0#8 ∉ bs) : Stdio.text bs = bs := by
  unfold Stdio.text
  induction bs with
  | nil => rfl
  | cons b bs ih =>
    rw [List.takeWhile_cons_of_pos, ih (fun hm => h (List.mem_cons_of_mem _ hm))]
    have : b ≠ 0#8 := fun e => h (by rw [e]; exact List.mem_cons_self)
    simpa using this

theorem int_small {size : BitVec 64} (h : size.toNat < 2 ^ 31) : Stdio.int size = size.toNat := by
  have e : (size.truncate 32).toNat = size.toNat := by rw [BitVec.truncate_eq_setWidth, BitVec.toNat_setWidth]; omega
  unfold Stdio.int
  rw [BitVec.toInt_eq_toNat_of_lt (by rw [e]; omega), e]

/-- `input`, in a mode that suits. -/
theorem input_after {m : Mode} {size : BitVec 64} {s : Stream} (hsize : size ≠ 0) (hm : Suits m size s.items) (ho : Over s) : After size.toNat s (input m size s).2 (input m size s).1 := by
  have h0 : 0 < size.toNat := Nat.pos_of_ne_zero fun h => hsize (BitVec.eq_of_toNat_eq h)
  cases m with
  | block => exact fread_after _ _ s h0 (Nat.le_refl _) ho
  | character => exact fread_after _ _ s Nat.one_pos h0 ho
  | line =>
    obtain ⟨hz, h2, h31⟩ := hm rfl
    unfold input
    simp only [int_small h31]
    unfold Stdio.fgets
    rw [if_neg (by omega), if_neg (by omega)]
    by_cases he : s.eof = true
    · rw [if_pos he]
      exact after_over ho he
    · rw [if_neg he]
      have g := gathered true (((size.toNat : Int)).toNat - 1) s.items
      have hpos : 0 < ((size.toNat : Int)).toNat - 1 := by omega
      have hle : ((size.toNat : Int)).toNat - 1 ≤ size.toNat := by omega
      revert g hpos hle
      generalize ((size.toNat : Int)).toNat - 1 = n
      intro g hpos hle
      simp only []
      by_cases hc : ((gather true n s.items).1 = [] || (gather true n s.items).2.1 = .error) = true
      · rw [if_pos hc]
        by_cases hb : (gather true n s.items).1 = []
        · rw [hb] at g
          exact after_gathered g he hpos hle
        · have hs : (gather true n s.items).2.1 = .error := by simpa [hb] using hc
          rw [hs] at g ⊢
          exact after_failed g he
      · rw [if_neg hc]
        have hz' : 0#8 ∉ (gather true n s.items).1 := fun h => hz (by rw [g.all]; exact List.mem_append_left _ h)
        simp only [takeWhile_all hz']
        exact after_gathered g he hpos hle

/-- In any mode, data is something, and something has been read for it. -/
theorem input_fewer (m : Mode) (size : BitVec 64) (s : Stream) (bs : List Byte) (h : (input m size s).1 = .data bs) : (input m size s).2.items.length < s.items.length ∧ bs ≠ [] := by
  have key : ∀ (line : Bool) (n : Nat) (s : Stream), (gather line n s.items).1 ≠ [] → (s.after (gather line n s.items).2.1 (gather line n s.items).2.2).items.length < s.items.length := by
    intro line n s h
    have g := (gathered line n s.items).fewer
    have : 0 < (gather line n s.items).1.length := List.length_pos_iff.mpr h
    show (gather line n s.items).2.2.length < _
    omega
  have judged : ∀ (l : List Byte) (s : Stream), judge l s = .data bs → l = bs ∧ bs ≠ [] := by
    intro l s h
    by_cases hl : l = []
    · subst hl
      rw [judge_nil] at h
      split at h <;> cases h
    · rw [judge_some hl] at h
      cases h
      exact ⟨rfl, hl⟩
  have nothing : ∀ s, judge [] s ≠ .data bs := fun s h => absurd (judged _ _ h).1 (fun e => (judged _ _ h).2 e.symm)
  have fr : ∀ n, judge (Stdio.fread n s).1 (Stdio.fread n s).2 = .data bs → (Stdio.fread n s).2.items.length < s.items.length ∧ bs ≠ [] := by
    intro n h
    obtain ⟨h1, h2⟩ := judged _ _ h
    refine ⟨?_, h2⟩
    revert h1
    unfold Stdio.fread
    by_cases he : s.eof = true
    · rw [if_pos he]; intro h1; exact absurd h1.symm h2
    · rw [if_neg he]; intro h1; exact key false n s (by rw [show (gather false n s.items).1 = bs from h1]; exact h2)
  cases m with
  | block => exact fr _ h
  | character => exact fr _ h
  | line =>
    revert h
    unfold input Stdio.fgets
    by_cases h1 : Stdio.int size ≤ 0
    · rw [if_pos h1]; intro h; exact absurd (show judge [] s = .data bs from h) (nothing s)
    · rw [if_neg h1]
      by_cases h2 : Stdio.int size = 1
      · rw [if_pos h2]; intro h; exact absurd (show judge [] s = .data bs from h) (nothing s)
      · rw [if_neg h2]
        by_cases he : s.eof = true
        · rw [if_pos he]; intro h; exact absurd (show judge [] s = .data bs from h) (nothing s)
        · rw [if_neg he]
          simp only []
          by_cases hc : ((gather true ((Stdio.int size).toNat - 1) s.items).1 = [] || (gather true ((Stdio.int size).toNat - 1) s.items).2.1 = .error) = true
          · rw [if_pos hc]; intro h; exact absurd (show judge [] (s.after _ _) = .data bs from h) (nothing _)
          · rw [if_neg hc]
            intro h
            refine ⟨key true _ s (fun e => hc (by simp [e])), (judged _ _ h).2⟩

end Diminuto.Shaperbuffered
