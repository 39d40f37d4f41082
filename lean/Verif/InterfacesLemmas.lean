import Verif.InterfacesSpec

/-!
# Lemmas: lists of interfaces and addresses
-/

namespace Diminuto.Interfaces

theorem strncmp_take (n : Nat) : ∀ p q : List Byte, 0#8 ∉ p → 0#8 ∉ q → (Ipcl.strncmp n p q = 0 ↔ p.take n = q.take n) := by
  induction n with
  | zero => intro p q _ _; simp [Ipcl.strncmp]
  | succ n ih =>
    intro p q hp hq
    have pos : ∀ a : Byte, a ≠ 0#8 → a.toNat ≠ 0 := fun a h e => h (BitVec.eq_of_toNat_eq e)
    cases p with
    | nil =>
      cases q with
      | nil => simp [Ipcl.strncmp]
      | cons b q =>
        have := pos b (fun e => hq (by simp [e]))
        simp only [Ipcl.strncmp, List.take_nil, List.take_succ_cons]
        constructor
        · intro h; omega
        · intro h; cases h
    | cons a p =>
      cases q with
      | nil =>
        have := pos a (fun e => hp (by simp [e]))
        simp only [Ipcl.strncmp, List.take_nil, List.take_succ_cons]
        constructor
        · intro h; omega
        · intro h; cases h
      | cons b q =>
        unfold Ipcl.strncmp
        rw [List.take_succ_cons, List.take_succ_cons, List.cons.injEq]
        by_cases hab : a = b
        · rw [if_pos hab, ih p q (fun h => hp (by simp [h])) (fun h => hq (by simp [h]))]
          simp [hab]
        · rw [if_neg hab]
          constructor
          · intro h
            exact absurd (BitVec.eq_of_toNat_eq (by omega)) hab
          · intro h; exact absurd h.1 hab

theorem takeWhile_append {l x : List Byte} (h : 0#8 ∈ l) : (l ++ x).takeWhile (· ≠ 0#8) = l.takeWhile (· ≠ 0#8) := by
  induction l with
  | nil => cases h
  | cons a l ih =>
    rw [List.cons_append, List.takeWhile_cons, List.takeWhile_cons]
    by_cases ha : a = 0#8
    · simp [ha]
    · have : 0#8 ∈ l := by
        rcases List.mem_cons.1 h with h | h
        · exact absurd h.symm ha
        · exact h
      rw [if_pos (by simpa using ha), if_pos (by simpa using ha), ih this]

theorem takeWhile_string {s : List Byte} (h : 0#8 ∉ s) : (s ++ [0#8]).takeWhile (· ≠ 0#8) = s := by
  induction s with
  | nil => simp
  | cons a s ih =>
    have ha : a ≠ 0#8 := fun e => h (by simp [e])
    rw [List.cons_append, List.takeWhile_cons, if_pos (by simpa using ha), ih (fun h' => h (by simp [h']))]

theorem take_strnlen (n : List Byte) : n.take (strnlen n NAME) = n.take 255 := by
  unfold strnlen NAME
  split
  · rw [List.take_of_length_le (Nat.le_refl _), List.take_of_length_le (by omega)]
  · rfl

theorem strnlen_eq (n : List Byte) : strnlen n NAME = (n.take 255).length := by
  rw [List.length_take]
  unfold strnlen NAME
  split <;> omega

/-- The block holds these strings. -/
def Laid (b : Block) (done : List (List Byte)) : Prop :=
  (∀ p ∈ b.pointers, p ≤ b.chars.length ∧ 0#8 ∈ b.chars.drop p) ∧ b.pointers.map b.string = done

theorem laid_snoc {b : Block} {done : List (List Byte)} (h : Laid b done) (s : List Byte) (hs : 0#8 ∉ s) :
    Laid { pointers := b.pointers ++ [b.chars.length], chars := b.chars ++ s ++ [0#8] } (done ++ [s]) := by
  obtain ⟨h1, h2⟩ := h
  have hdrop : ∀ p ≤ b.chars.length, (b.chars ++ s ++ [0#8]).drop p = b.chars.drop p ++ (s ++ [0#8]) := fun p hp => by
    rw [List.append_assoc, List.drop_append_of_le_length hp]
  refine ⟨fun p hp => ?_, ?_⟩
  · simp only [List.mem_append, List.mem_singleton] at hp
    simp only [] 
    rcases hp with hp | hp
    · obtain ⟨a, c⟩ := h1 p hp
      refine ⟨by simp only [List.length_append]; omega, ?_⟩
      rw [hdrop p a]
      exact List.mem_append_left _ c
    · subst hp
      refine ⟨by simp only [List.length_append]; omega, ?_⟩
      rw [hdrop _ (Nat.le_refl _)]
      simp
  · rw [List.map_append]
    congr 1
    · rw [← h2]
      apply List.map_congr_left
      intro p hp
      obtain ⟨a, c⟩ := h1 p hp
      unfold Block.string
      simp only []
      rw [hdrop p a, takeWhile_append c]
    · simp only [List.map_cons, List.map_nil, Block.string]
      rw [hdrop _ (Nat.le_refl _), List.drop_length, List.nil_append, takeWhile_string hs]

/-- The room that names take. -/
def room (l : List (List Byte)) : Nat := (l.map fun s => s.length + 1).sum

theorem sizes_eq (l : List Entry) : ∀ vs ns, sizes l (vs, ns) = (vs + (names l).length, ns + room (names l)) := by
  induction l with
  | nil => intro vs ns; simp [sizes, names, room]
  | cons e l ih =>
    intro vs ns
    unfold sizes
    cases hn : e.name with
    | none =>
      have : names (e :: l) = names l := by simp [names, hn]
      simp only [ih, this]
    | some n =>
      have : names (e :: l) = n.take 255 :: names l := by simp [names, hn]
      simp only [ih, this, List.length_cons, room, List.map_cons, List.sum_cons, strnlen_eq]
      simp only [Prod.mk.injEq]
      omega

theorem fill_spec (vs ns : Nat) (l : List Entry) : ∀ b done, Laid b done → (∀ s ∈ done, 0#8 ∉ s ∧ s.length ≤ 255) → Strings l →
    b.pointers.length + (names l).length < vs → b.chars.length + room (names l) ≤ ns →
    ∃ b', fill vs ns l b = some b' ∧ Laid b' (done ++ (firsts (names l)).filter (· ∉ done)) ∧ b'.pointers.length < vs := by
  induction l with
  | nil =>
    intro b done hb hd _ hv _
    exact ⟨b, rfl, by simpa [names, firsts] using hb, by simpa [names] using hv⟩
  | cons e l ih =>
    intro b done hb hd hl hv hn
    have hl' : Strings l := fun e' he => hl e' (by simp [he])
    unfold fill
    cases hname : e.name with
    | none =>
      have e1 : names (e :: l) = names l := by simp [names, hname]
      rw [e1] at hv hn ⊢
      exact ih b done hb hd hl' hv hn
    | some n =>
      have hn0 : 0#8 ∉ n := hl e (by simp) n hname
      have hm0 : 0#8 ∉ n.take 255 := fun h => hn0 (List.mem_of_mem_take h)
      have e1 : names (e :: l) = n.take 255 :: names l := by simp [names, hname]
      rw [e1] at hv hn ⊢
      have hany : (b.pointers.any fun p => Ipcl.strncmp NAME n (b.string p) == 0) = true ↔ n.take 255 ∈ done := by
        rw [List.any_eq_true, ← hb.2, List.mem_map]
        constructor
        · rintro ⟨p, hp, h⟩
          have hs := hd (b.string p) (by rw [← hb.2]; exact List.mem_map_of_mem hp)
          have h' : Ipcl.strncmp NAME n (b.string p) = 0 := by simpa using h
          rw [strncmp_take _ _ _ hn0 hs.1] at h'
          exact ⟨p, hp, by rw [show NAME = 255 from rfl, List.take_of_length_le hs.2] at h'; exact h'.symm⟩
        · rintro ⟨p, hp, h⟩
          have hs := hd (b.string p) (by rw [← hb.2]; exact List.mem_map_of_mem hp)
          refine ⟨p, hp, ?_⟩
          have : Ipcl.strncmp NAME n (b.string p) = 0 := by
            rw [strncmp_take _ _ _ hn0 hs.1, h, show NAME = 255 from rfl, List.take_take, Nat.min_self]
          simp [this]
      simp only []
      have hlen : (n.take 255 :: names l).length = (names l).length + 1 := List.length_cons
      have hroom : room (n.take 255 :: names l) = (n.take 255).length + 1 + room (names l) := by simp [room]
      rw [hlen] at hv
      rw [hroom] at hn
      by_cases hin : n.take 255 ∈ done
      · rw [if_pos (hany.2 hin)]
        obtain ⟨b', h1, h2, h3⟩ := ih b done hb hd hl' (by omega) (by omega)
        refine ⟨b', h1, ?_, h3⟩
        have : (firsts (n.take 255 :: names l)).filter (· ∉ done) = (firsts (names l)).filter (· ∉ done) := by
          rw [show firsts (n.take 255 :: names l) = n.take 255 :: (firsts (names l)).filter (· ≠ n.take 255) from rfl]
          rw [List.filter_cons_of_neg (by simpa using hin), List.filter_filter]
          apply List.filter_congr
          intro x _
          by_cases hx : x ∈ done
          · simp [hx]
          · have : x ≠ n.take 255 := fun h => hx (h ▸ hin)
            simp [hx, this]
        rw [this]
        exact h2
      · rw [if_neg (fun h => hin (hany.1 h))]
        rw [if_pos ⟨by omega, by rw [strnlen_eq]; omega⟩]
        rw [take_strnlen]
        obtain ⟨b', h1, h2, h3⟩ := ih _ (done ++ [n.take 255]) (laid_snoc hb _ hm0) (by
          intro s hs
          rcases List.mem_append.1 hs with hs | hs
          · exact hd s hs
          · rw [List.mem_singleton.1 hs]
            exact ⟨hm0, by rw [List.length_take]; omega⟩) hl'
          (by simp only [List.length_append, List.length_singleton]; omega) (by simp only [List.length_append, List.length_singleton]; omega)
        refine ⟨b', h1, ?_, h3⟩
        have : done ++ (firsts (n.take 255 :: names l)).filter (· ∉ done) = done ++ [n.take 255] ++ (firsts (names l)).filter (· ∉ done ++ [n.take 255]) := by
          rw [show firsts (n.take 255 :: names l) = n.take 255 :: (firsts (names l)).filter (· ≠ n.take 255) from rfl]
          rw [List.filter_cons_of_pos (by simpa using hin), List.filter_filter, List.append_assoc, List.singleton_append]
          congr 2
          apply List.filter_congr
          intro x _
          by_cases hx : x ∈ done <;> simp [hx]
        rw [this]
        exact h2

theorem collect_spec {α : Type} (zero : α) (p : Entry → Option (Option α)) (q : Entry → Option α) (l : List Entry) (h : ∀ e ∈ l, p e = some (q e)) :
    collect zero p (some l) true = some (some (l.filterMap q ++ [zero])) := by
  have hcount : ∀ l : List Entry, (∀ e ∈ l, p e = some (q e)) → ∀ vs, count p l vs = some (vs + (l.filterMap q).length) := by
    intro l
    induction l with
    | nil => intro _ vs; simp [count]
    | cons e l ih =>
      intro h vs
      unfold count
      rw [h e (by simp), List.filterMap_cons]
      cases q e with
      | none => exact ih (fun e' he => h e' (by simp [he])) vs
      | some a => 
        simp only [List.length_cons]
        rw [ih (fun e' he => h e' (by simp [he])) (vs + 1)]
        congr 1
        omega
  have hstore : ∀ l : List Entry, (∀ e ∈ l, p e = some (q e)) → ∀ vs v, v.length + (l.filterMap q).length < vs → store p vs l v = some (v ++ l.filterMap q) := by
    intro l
    induction l with
    | nil => intro _ vs v _; simp [store]
    | cons e l ih =>
      intro h vs v hv
      unfold store
      rw [h e (by simp)]
      rw [List.filterMap_cons] at hv ⊢
      cases hq : q e with
      | none =>
        rw [hq] at hv
        exact ih (fun e' he => h e' (by simp [he])) vs v hv
      | some a =>
        rw [hq] at hv
        simp only [List.length_cons] at hv ⊢
        rw [if_pos (by omega), ih (fun e' he => h e' (by simp [he])) vs (v ++ [a]) (by simp only [List.length_append, List.length_singleton]; omega)]
        simp
  unfold collect
  simp only [hcount l h 1, hstore l h (1 + (l.filterMap q).length) [] (by simp)]
  simp

end Diminuto.Interfaces
