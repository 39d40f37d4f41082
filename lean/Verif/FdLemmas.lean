import Verif.FdSpec

/-!
# Lemmas: reading and writing
-/

namespace Diminuto.Fd

theorem sysRead_eof {slack : Nat} {e : Source} (h : (sysRead slack e).1 = .eof) :
    available ((sysRead slack e).2) = available [e] := by
  unfold sysRead at *
  cases e with
  | data bs =>
    simp only at h ⊢
    split at h
    · rename_i h0
      rw [if_pos h0]
      have : bs = [] := List.length_eq_zero_iff.1 h0
      subst this
      rfl
    · split at h <;> simp at h
  | eof => rfl
  | error => rfl

theorem sysRead_error {slack : Nat} {e : Source} (h : (sysRead slack e).1 = .error) :
    available ((sysRead slack e).2) = available [e] ∧ e = .error := by
  unfold sysRead at *
  cases e with
  | data bs =>
    simp only at h
    split at h
    · simp at h
    · split at h <;> simp at h
  | eof => simp at h
  | error => exact ⟨rfl, rfl⟩

theorem sysRead_got {slack : Nat} {e : Source} {bs : List Byte} (hs : slack > 0)
    (h : (sysRead slack e).1 = .got bs) :
    bs ≠ [] ∧ bs.length ≤ slack ∧ available [e] = bs ++ available ((sysRead slack e).2) ∧
      (bs.length < slack → (sysRead slack e).2 = []) := by
  unfold sysRead at *
  cases e with
  | data b =>
    simp only at h ⊢
    by_cases h0 : b.length = 0
    · rw [if_pos h0] at h; simp at h
    · rw [if_neg h0] at h ⊢
      by_cases h1 : b.length ≤ slack
      · rw [if_pos h1] at h ⊢
        simp only [Reply.got.injEq] at h
        subst h
        refine ⟨fun he => h0 (by rw [he]; rfl), h1, by simp [available], fun _ => rfl⟩
      · rw [if_neg h1] at h ⊢
        simp only [Reply.got.injEq] at h
        subst h
        refine ⟨fun he => ?_, by simp; omega, by simp [available], fun hl => ?_⟩
        · have := congrArg List.length he
          rw [List.length_take, List.length_nil] at this
          omega
        · simp at hl
          omega
  | eof => simp at h
  | error => simp at h

theorem available_append (a b : List Source) : available (a ++ b) = available a ++ available b := by
  simp [available]

theorem available_cons (e : Source) (k : List Source) :
    available (e :: k) = available [e] ++ available k := available_append [e] k

theorem bytesOf_cons (c : Nat × Reply) (l : List (Nat × Reply)) :
    bytesOf (c :: l) = c.2.bytes ++ bytesOf l := by simp [bytesOf]

theorem countOf_cons (c : Nat × Taken) (l : List (Nat × Taken)) :
    countOf (c :: l) = c.2.count + countOf l := by simp [countOf]

/-- What the loop guarantees when `n` bytes have been read already. -/
def ReadDone (min max n : Nat) (k : List Source) (mem : List Byte) (g : Got) : Prop :=
  ∃ d, d = bytesOf g.calls ∧ available k = d ++ available g.kernel ∧
    g.mem = mem.take n ++ d ++ mem.drop (n + d.length) ∧ n + d.length ≤ max ∧
    g.ret = (if n + d.length = 0 ∧ g.calls.getLast?.map Prod.snd = some .error then -1
      else ((n + d.length : Nat) : Int)) ∧
    ∀ pre x post, g.calls = pre ++ x :: post →
      x.1 = max - (n + (bytesOf pre).length) ∧ n + (bytesOf pre).length < max ∧
      (pre ≠ [] → n + (bytesOf pre).length < min) ∧
      x.2.bytes.length ≤ x.1 ∧
      (post ≠ [] → x.2.bytes ≠ []) ∧
      (post = [] → x.2.bytes ≠ [] → min ≤ n + d.length ∨ n + d.length = max)

theorem cons_eq_single {α : Type} {a x : α} {pre post : List α} (h : [a] = pre ++ x :: post) :
    pre = [] ∧ x = a ∧ post = [] := by
  cases pre with
  | nil => simp at h; exact ⟨rfl, h.1.symm, h.2⟩
  | cons b r => simp at h

theorem readLoop_done (min max : Nat) : ∀ (k : List Source) (mem : List Byte) (n : Nat),
    n ≤ max → max ≤ mem.length →
    match readLoop (min : Int) k mem n (max - n) (n : Int) with
    | .undefined => False
    | .blocks => n < max
    | .done g => ReadDone min max n k mem g := by
  intro k
  induction k with
  | nil =>
    intro mem n hn hm
    unfold readLoop
    by_cases h : max - n > 0
    · rw [if_pos h]
      simp only []
      omega
    · rw [if_neg h]
      simp only []
      refine ⟨[], rfl, rfl, by simp, by simpa using hn, ?_, ?_⟩
      · simp
      · intro pre x post he
        simp at he
  | cons e k ih =>
    intro mem n hn hm
    unfold readLoop
    by_cases h : max - n > 0
    · rw [if_pos h]
      simp only []
      cases hr : (sysRead (max - n) e).1 with
      | eof =>
        simp only []
        refine ⟨[], rfl, ?_, by simp, by simpa using hn, ?_, ?_⟩
        · simp only []
          rw [available_append, sysRead_eof hr, ← available_cons]
          rfl
        · simp
        · intro pre x post he
          obtain ⟨rfl, rfl, rfl⟩ := cons_eq_single he
          refine ⟨?_, ?_, ?_, ?_, ?_, ?_⟩ <;> simp [bytesOf, Reply.bytes]
          omega
      | error =>
        simp only []
        refine ⟨[], rfl, ?_, by simp, by simpa using hn, ?_, ?_⟩
        · simp only []
          rw [available_append, (sysRead_error hr).1, ← available_cons]
          rfl
        · by_cases h0 : n = 0 <;> simp [h0]
        · intro pre x post he
          obtain ⟨rfl, rfl, rfl⟩ := cons_eq_single he
          refine ⟨?_, ?_, ?_, ?_, ?_, ?_⟩ <;> simp [bytesOf, Reply.bytes]
          omega
      | got bs =>
        obtain ⟨hne, hle, hav, hrest⟩ := sysRead_got h hr
        have hlen : 0 < bs.length := List.length_pos_iff.2 hne
        simp only []
        have hst : store mem n bs = some (mem.take n ++ bs ++ mem.drop (n + bs.length)) := by
          unfold store
          rw [if_pos (by omega)]
        rw [hst]
        simp only []
        by_cases hc : (n : Int) + bs.length ≥ min ∨ bs.length = max - n
        · rw [if_pos hc]
          simp only []
          refine ⟨bs, by simp [bytesOf, Reply.bytes], ?_, rfl, by omega, ?_, ?_⟩
          · simp only []
            rw [available_append, available_cons, hav, List.append_assoc]
          · simp only []
            rw [if_neg (by omega)]
            simp
          · intro pre x post he
            obtain ⟨rfl, rfl, rfl⟩ := cons_eq_single he
            refine ⟨by simp [bytesOf], by simp [bytesOf]; omega, by simp, by simpa [Reply.bytes] using hle,
              by simp, fun _ _ => by omega⟩
        · rw [if_neg hc]
          have hlt : bs.length < max - n := by omega
          have hnil := hrest hlt
          rw [hnil] at hav
          have hav' : available (e :: k) = bs ++ available k := by
            rw [available_cons, hav]
            simp [available]
          have := ih (mem.take n ++ bs ++ mem.drop (n + bs.length)) (n + bs.length) (by omega)
            (by simp; omega)
          have e1 : max - n - bs.length = max - (n + bs.length) := by omega
          have e2 : (n : Int) + bs.length = ((n + bs.length : Nat) : Int) := by omega
          rw [e1, e2]
          cases hl : readLoop (min : Int) k (mem.take n ++ bs ++ mem.drop (n + bs.length)) (n + bs.length)
              (max - (n + bs.length)) ((n + bs.length : Nat) : Int) with
          | undefined => rw [hl] at this; exact this
          | blocks =>
            simp only [Outcome.map]
            omega
          | done g =>
            rw [hl] at this
            obtain ⟨d, d1, d2, d3, d4, d5, d6⟩ := this
            simp only [Outcome.map, Got.before]
            have hbl : (bs ++ d).length = bs.length + d.length := by simp
            refine ⟨bs ++ d, ?_, ?_, ?_, ?_, ?_, ?_⟩
            · simp only []
              rw [bytesOf_cons, d1]
              rfl
            · rw [hav', d2, List.append_assoc]
            · simp only []
              rw [d3]
              have ht : (mem.take n).length = n := by simp; omega
              rw [List.take_append_of_le_length (by simp; omega), List.take_of_length_le (by simp; omega),
                List.append_assoc (mem.take n) bs d, List.drop_append, List.drop_append]
              have : List.drop (n + bs.length + d.length) (mem.take n) = [] :=
                List.drop_eq_nil_of_le (by omega)
              rw [this]
              have : List.drop (n + bs.length + d.length - (mem.take n).length) bs = [] :=
                List.drop_eq_nil_of_le (by omega)
              rw [this, List.nil_append, List.nil_append, List.drop_drop, hbl]
              congr 2
              simp
              omega
            · rw [hbl]; omega
            · simp only []
              rw [d5, hbl]
              have a1 : ¬ n + bs.length + d.length = 0 := by omega
              have a2 : ¬ n + (bs.length + d.length) = 0 := by omega
              rw [if_neg (fun h => a1 h.1), if_neg (fun h => a2 h.1), Nat.add_assoc]
            · intro pre x post he
              rw [hbl]
              cases pre with
              | nil =>
                simp only [List.nil_append, List.cons.injEq] at he
                obtain ⟨rfl, hp⟩ := he
                refine ⟨by simp [bytesOf], by simp [bytesOf]; omega, by simp,
                  by simpa [Reply.bytes] using hle, fun _ => by simpa [Reply.bytes] using hne, fun hp' _ => ?_⟩
                rw [hp'] at hp
                rw [hp] at d1
                exfalso
                have : d = [] := by rw [d1]; rfl
                -- the loop has made another call
                clear d5 d6 d3 d2
                unfold readLoop at hl
                cases k with
                | nil =>
                  simp only at hl
                  rw [if_pos (by omega)] at hl
                  simp at hl
                | cons e' k' =>
                  simp only at hl
                  rw [if_pos (by omega)] at hl
                  cases hr' : (sysRead (max - (n + bs.length)) e').1 with
                  | eof =>
                    rw [hr'] at hl
                    simp only [Outcome.done.injEq] at hl
                    rw [← hl] at hp
                    simp at hp
                  | error =>
                    rw [hr'] at hl
                    simp only [Outcome.done.injEq] at hl
                    rw [← hl] at hp
                    simp at hp
                  | got b =>
                    rw [hr'] at hl
                    simp only at hl
                    split at hl
                    · simp at hl
                    · split at hl
                      · simp only [Outcome.done.injEq] at hl
                        rw [← hl] at hp
                        simp at hp
                      · unfold Outcome.map at hl
                        split at hl
                        · simp only [Outcome.done.injEq] at hl
                          rw [← hl] at hp
                          simp [Got.before] at hp
                        · simp at hl
                        · simp at hl
              | cons c pre =>
                simp only [List.cons_append, List.cons.injEq] at he
                obtain ⟨rfl, hp⟩ := he
                obtain ⟨f1, f2, f3, f4, f5, f6⟩ := d6 pre x post hp
                have hb : (bytesOf ((max - n, Reply.got bs) :: pre)).length
                    = bs.length + (bytesOf pre).length := by
                  rw [bytesOf_cons]; simp [Reply.bytes]
                rw [hb]
                refine ⟨by rw [f1]; omega, by omega, fun _ => ?_, f4, f5, fun a b => ?_⟩
                · by_cases hpe : pre = []
                  · subst hpe
                    simp [bytesOf]
                    omega
                  · have := f3 hpe
                    omega
                · have := f6 a b
                  omega
    · rw [if_neg h]
      simp only []
      refine ⟨[], rfl, rfl, by simp, by simpa using hn, ?_, ?_⟩
      · simp
      · intro pre x post he
        simp at he

theorem sysWrite_took {slack n : Nat} {e : Sink} (hs : slack > 0) (h : sysWrite slack e = .took n) :
    0 < n ∧ n ≤ slack := by
  cases e with
  | room m =>
    simp only [sysWrite] at h
    split at h
    · simp at h
    · simp only [Taken.took.injEq] at h
      omega
  | zero => simp [sysWrite] at h
  | error => simp [sysWrite] at h

/-- What the loop guarantees when `n` bytes have been written already. -/
def WriteDone (min max n : Nat) (mem : List Byte) (p : Put) : Prop :=
  ∃ d, d = countOf p.calls ∧ p.out = (mem.drop n).take d ∧ n + d ≤ max ∧
    p.ret = (if n + d = 0 ∧ p.calls.getLast?.map Prod.snd = some .error then -1
      else ((n + d : Nat) : Int)) ∧
    ∀ pre x post, p.calls = pre ++ x :: post →
      x.1 = max - (n + countOf pre) ∧ n + countOf pre < max ∧
      (pre ≠ [] → n + countOf pre < min) ∧
      x.2.count ≤ x.1 ∧
      (post ≠ [] → x.2.count ≠ 0) ∧
      (post = [] → x.2.count ≠ 0 → min ≤ n + d ∨ n + d = max)

/-- Unless nothing is left, a loop that returns has made a call. -/
theorem writeLoop_calls {min : Int} {k : List Sink} {mem : List Byte} {bp slack : Nat} {t : Int} {p : Put}
    (h : writeLoop min mem k bp slack t = .done p) (hs : slack > 0) : p.calls ≠ [] := by
  cases k with
  | nil =>
    unfold writeLoop at h
    rw [if_pos hs] at h
    simp at h
  | cons e k =>
    unfold writeLoop at h
    rw [if_pos hs] at h
    cases hr : sysWrite slack e with
    | zero =>
      rw [hr] at h
      simp only [Outcome.done.injEq] at h
      rw [← h]
      simp
    | error =>
      rw [hr] at h
      simp only [Outcome.done.injEq] at h
      rw [← h]
      simp
    | took m =>
      rw [hr] at h
      simp only at h
      split at h
      · split at h
        · simp only [Outcome.done.injEq] at h
          rw [← h]
          simp
        · unfold Outcome.map at h
          split at h
          · simp only [Outcome.done.injEq] at h
            rw [← h]
            simp [Put.before]
          · simp at h
          · simp at h
      · simp at h

theorem writeLoop_done (min max : Nat) (mem : List Byte) (hm : max ≤ mem.length) :
    ∀ (k : List Sink) (n : Nat), n ≤ max →
    match writeLoop (min : Int) mem k n (max - n) (n : Int) with
    | .undefined => False
    | .blocks => n < max
    | .done p => WriteDone min max n mem p := by
  intro k
  induction k with
  | nil =>
    intro n hn
    unfold writeLoop
    by_cases h : max - n > 0
    · rw [if_pos h]
      simp only []
      omega
    · rw [if_neg h]
      simp only []
      refine ⟨0, rfl, by simp, by simpa using hn, by simp, ?_⟩
      intro pre x post he
      simp at he
  | cons e k ih =>
    intro n hn
    unfold writeLoop
    by_cases h : max - n > 0
    · rw [if_pos h]
      cases hr : sysWrite (max - n) e with
      | zero =>
        simp only []
        refine ⟨0, rfl, by simp, by simpa using hn, by simp, ?_⟩
        intro pre x post he
        obtain ⟨rfl, rfl, rfl⟩ := cons_eq_single he
        refine ⟨?_, ?_, ?_, ?_, ?_, ?_⟩ <;> simp [countOf, Taken.count]
        omega
      | error =>
        simp only []
        refine ⟨0, rfl, by simp, by simpa using hn, ?_, ?_⟩
        · by_cases h0 : n = 0 <;> simp [h0]
        · intro pre x post he
          obtain ⟨rfl, rfl, rfl⟩ := cons_eq_single he
          refine ⟨?_, ?_, ?_, ?_, ?_, ?_⟩ <;> simp [countOf, Taken.count]
          omega
      | took m =>
        obtain ⟨hm0, hml⟩ := sysWrite_took h hr
        simp only []
        rw [if_pos (by omega)]
        by_cases hc : (n : Int) + m ≥ min
        · rw [if_pos hc]
          simp only []
          refine ⟨m, by simp [countOf, Taken.count], rfl, by omega, ?_, ?_⟩
          · simp only []
            rw [if_neg (by omega)]
            simp
          · intro pre x post he
            obtain ⟨rfl, rfl, rfl⟩ := cons_eq_single he
            refine ⟨by simp [countOf], by simp [countOf]; omega, by simp,
              by simpa [Taken.count] using hml, by simp, fun _ _ => by omega⟩
        · rw [if_neg hc]
          have := ih (n + m) (by omega)
          have e1 : max - n - m = max - (n + m) := by omega
          have e2 : (n : Int) + m = ((n + m : Nat) : Int) := by omega
          rw [e1, e2]
          cases hl : writeLoop (min : Int) mem k (n + m) (max - (n + m)) ((n + m : Nat) : Int) with
          | undefined => rw [hl] at this; exact this
          | blocks =>
            simp only [Outcome.map]
            omega
          | done p =>
            rw [hl] at this
            obtain ⟨d, d1, d2, d4, d5, d6⟩ := this
            simp only [Outcome.map, Put.before]
            refine ⟨m + d, ?_, ?_, by omega, ?_, ?_⟩
            · simp only []
              rw [countOf_cons, d1]
              rfl
            · simp only []
              rw [d2, List.take_add, List.drop_drop]
            · simp only []
              rw [d5]
              have a1 : ¬ n + m + d = 0 := by omega
              have a2 : ¬ n + (m + d) = 0 := by omega
              rw [if_neg (fun h => a1 h.1), if_neg (fun h => a2 h.1), Nat.add_assoc]
            · intro pre x post he
              cases pre with
              | nil =>
                simp only [List.nil_append, List.cons.injEq] at he
                obtain ⟨rfl, hp⟩ := he
                refine ⟨by simp [countOf], by simp [countOf]; omega, by simp,
                  by simpa [Taken.count] using hml, fun _ => by simp [Taken.count]; omega, fun hp' _ => ?_⟩
                rw [hp'] at hp
                by_cases hx : max - (n + m) > 0
                · exact absurd hp (writeLoop_calls hl hx)
                · omega
              | cons c pre =>
                simp only [List.cons_append, List.cons.injEq] at he
                obtain ⟨rfl, hp⟩ := he
                obtain ⟨f1, f2, f3, f4, f5, f6⟩ := d6 pre x post hp
                have hb : countOf ((max - n, Taken.took m) :: pre) = m + countOf pre := by
                  rw [countOf_cons]; simp [Taken.count]
                rw [hb]
                refine ⟨by rw [f1]; omega, by omega, fun _ => ?_, f4, f5, fun a b => ?_⟩
                · by_cases hpe : pre = []
                  · subst hpe
                    simp [countOf]
                    omega
                  · have := f3 hpe
                    omega
                · have := f6 a b
                  omega
    · rw [if_neg h]
      simp only []
      refine ⟨0, rfl, by simp, by simpa using hn, by simp, ?_⟩
      intro pre x post he
      simp at he

/-- No reply of bytes is empty. -/
theorem got_ne {min : Int} (k : List Source) : ∀ (mem : List Byte) (bp slack : Nat) (t : Int) (g : Got),
    readLoop min k mem bp slack t = .done g → ∀ c ∈ g.calls, c.2 ≠ .got [] := by
  induction k with
  | nil =>
    intro mem bp slack t g h
    unfold readLoop at h
    split at h
    · simp at h
    · simp only [Outcome.done.injEq] at h
      rw [← h]
      simp
  | cons e k ih =>
    intro mem bp slack t g h
    unfold readLoop at h
    by_cases hs : slack > 0
    · rw [if_pos hs] at h
      simp only [] at h
      cases hr : (sysRead slack e).1 with
      | eof =>
        rw [hr] at h
        simp only [Outcome.done.injEq] at h
        rw [← h]
        simp
      | error =>
        rw [hr] at h
        simp only [Outcome.done.injEq] at h
        rw [← h]
        simp
      | got bs =>
        have hne := (sysRead_got hs hr).1
        rw [hr] at h
        simp only [] at h
        split at h
        · simp at h
        · split at h
          · simp only [Outcome.done.injEq] at h
            rw [← h]
            simpa using hne
          · unfold Outcome.map at h
            split at h
            · rename_i g' hg'
              simp only [Outcome.done.injEq] at h
              rw [← h]
              intro c hc
              simp only [Got.before, List.mem_cons] at hc
              rcases hc with rfl | hc
              · simpa using hne
              · exact ih _ _ _ _ _ hg' c hc
            · simp at h
            · simp at h
    · rw [if_neg hs] at h
      simp only [Outcome.done.injEq] at h
      rw [← h]
      simp

theorem readLoop_blocks (min max : Nat) : ∀ (k : List Source) (mem : List Byte) (n : Nat), n ≤ max →
    readLoop (min : Int) k mem n (max - n) (n : Int) = .blocks →
    n + (available k).length < max ∧ (k ≠ [] → n + (available k).length < min) := by
  intro k
  induction k with
  | nil =>
    intro mem n hn h
    unfold readLoop at h
    split at h
    · exact ⟨by simp [available]; omega, fun h => absurd rfl h⟩
    · simp at h
  | cons e k ih =>
    intro mem n hn h
    unfold readLoop at h
    by_cases hs : max - n > 0
    · rw [if_pos hs] at h
      simp only [] at h
      cases hr : (sysRead (max - n) e).1 with
      | eof => rw [hr] at h; simp at h
      | error => rw [hr] at h; simp at h
      | got bs =>
        obtain ⟨h1, h2, h3, h4⟩ := sysRead_got hs hr
        rw [hr] at h
        simp only [] at h
        split at h
        · simp at h
        · split at h
          · simp at h
          · rename_i hc
            have hnil := h4 (by omega)
            rw [hnil] at h3
            have hav : (available (e :: k)).length = bs.length + (available k).length := by
              rw [available_cons, h3]
              simp [available]
            unfold Outcome.map at h
            split at h
            · simp at h
            · rename_i hb
              have e1 : max - n - bs.length = max - (n + bs.length) := by omega
              have e2 : (n : Int) + bs.length = ((n + bs.length : Nat) : Int) := by omega
              rw [e1, e2] at hb
              obtain ⟨i1, i2⟩ := ih _ (n + bs.length) (by omega) hb
              rw [hav]
              refine ⟨by omega, fun _ => ?_⟩
              cases k with
              | nil => simp [available]; omega
              | cons e' k' => have := i2 (by simp); omega
            · simp at h
    · rw [if_neg hs] at h
      simp at h

theorem toInt_small (v : BitVec 64) (h : v.toNat < 2 ^ 63) : v.toInt = (v.toNat : Int) := by
  rw [BitVec.toInt_eq_toNat_cond, if_pos (by omega)]

/-- No reply takes nothing. -/
theorem took_ne {min : Int} {mem : List Byte} (k : List Sink) : ∀ (bp slack : Nat) (t : Int) (p : Put),
    writeLoop min mem k bp slack t = .done p → ∀ c ∈ p.calls, c.2 ≠ .took 0 := by
  induction k with
  | nil =>
    intro bp slack t p h
    unfold writeLoop at h
    split at h
    · simp at h
    · simp only [Outcome.done.injEq] at h
      rw [← h]
      simp
  | cons e k ih =>
    intro bp slack t p h
    unfold writeLoop at h
    by_cases hs : slack > 0
    · rw [if_pos hs] at h
      cases hr : sysWrite slack e with
      | zero =>
        rw [hr] at h
        simp only [Outcome.done.injEq] at h
        rw [← h]
        simp
      | error =>
        rw [hr] at h
        simp only [Outcome.done.injEq] at h
        rw [← h]
        simp
      | took m =>
        have hm := (sysWrite_took hs hr).1
        have hm' : m ≠ 0 := by omega
        rw [hr] at h
        simp only [] at h
        split at h
        · split at h
          · simp only [Outcome.done.injEq] at h
            rw [← h]
            simpa using hm'
          · unfold Outcome.map at h
            split at h
            · rename_i p' hp'
              simp only [Outcome.done.injEq] at h
              rw [← h]
              intro c hc
              simp only [Put.before, List.mem_cons] at hc
              rcases hc with rfl | hc
              · simpa using hm'
              · exact ih _ _ _ _ hp' c hc
            · simp at h
            · simp at h
        · simp at h
    · rw [if_neg hs] at h
      simp only [Outcome.done.injEq] at h
      rw [← h]
      simp

end Diminuto.Fd
