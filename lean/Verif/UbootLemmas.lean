import Verif.UbootSpec

/-!
# Lemmas for the environment of U-Boot
-/

namespace Diminuto.Uboot

/-- The step of the register with no bit coming in. -/
def shift (s : BitVec 32) : BitVec 32 := register s false

theorem register_eq (s : BitVec 32) (b : Bool) : register s b = shift (s ^^^ (BitVec.ofBool b).setWidth 32) := by
  unfold shift register
  have h1 : (s ^^^ (BitVec.ofBool b).setWidth 32) >>> 1 = s >>> 1 := by
    apply BitVec.eq_of_getLsbD_eq
    intro i hi
    simp only [BitVec.getLsbD_ushiftRight, BitVec.getLsbD_xor, BitVec.getLsbD_setWidth]
    have : (BitVec.ofBool b).getLsbD (1 + i) = false := BitVec.getLsbD_of_ge _ _ (by omega)
    rw [this]; simp
  rw [h1]
  have h0 : (s ^^^ (BitVec.ofBool b).setWidth 32).getLsbD 0 = (s.getLsbD 0 ^^ b) := by
    rw [BitVec.getLsbD_xor]
    cases b <;> simp
  rw [h0]
  cases b <;> cases s.getLsbD 0 <;> simp

theorem shift_xor (a b : BitVec 32) : shift (a ^^^ b) = shift a ^^^ shift b := by
  unfold shift register
  rw [BitVec.getLsbD_xor, BitVec.ushiftRight_xor_distrib]
  cases a.getLsbD 0 <;> cases b.getLsbD 0 <;> simp
  · rw [BitVec.xor_assoc]
  · rw [BitVec.xor_assoc, BitVec.xor_assoc, BitVec.xor_comm (b >>> 1)]
  · rw [BitVec.xor_assoc, BitVec.xor_comm _ (b >>> 1 ^^^ _), BitVec.xor_assoc, BitVec.xor_self, BitVec.xor_zero]

def shifts : Nat → BitVec 32 → BitVec 32
  | 0, s => s
  | n + 1, s => shifts n (shift s)

theorem shifts_xor (n : Nat) : ∀ a b : BitVec 32, shifts n (a ^^^ b) = shifts n a ^^^ shifts n b := by
  induction n with
  | zero => intro a b; rfl
  | succ n ih => intro a b; simp only [shifts]; rw [shift_xor, ih]

theorem shifts_clear (n : Nat) : ∀ s : BitVec 32, (∀ i, i < n → s.getLsbD i = false) → shifts n s = s >>> n := by
  induction n with
  | zero => intro s _; simp [shifts]
  | succ n ih =>
    intro s h
    have h0 : shift s = s >>> 1 := by
      unfold shift register
      rw [if_neg (by rw [h 0 (by omega)]; simp)]
    simp only [shifts]
    rw [h0, ih]
    · apply BitVec.eq_of_getLsbD_eq
      intro i hi
      simp only [BitVec.getLsbD_ushiftRight]
      congr 1; omega
    · intro i hi
      rw [BitVec.getLsbD_ushiftRight]
      exact h _ (by omega)

/-- The entries of the table are what the register makes of the eight bits. -/
theorem table_fin : ∀ i : Fin 256, crcTable[i.val]? = some (shifts 8 (BitVec.ofNat 32 i.val)) := by decide +kernel

theorem table (v : BitVec 32) (h : v.toNat < 256) : crcTable[v.toNat]? = some (shifts 8 v) := by
  have := table_fin ⟨v.toNat, h⟩
  simpa using this

/-- The bits as a number, the first with the least weight. -/
def val : List Bool → BitVec 32
  | [] => 0
  | b :: r => (BitVec.ofBool b).setWidth 32 ^^^ (val r <<< 1)

theorem val_bit (bs : List Bool) : ∀ i, i < 32 → (val bs).getLsbD i = bs.getD i false := by
  induction bs with
  | nil => intro i hi; simp [val]
  | cons b r ih =>
    intro i hi
    simp only [val, BitVec.getLsbD_xor, BitVec.getLsbD_setWidth, BitVec.getLsbD_shiftLeft]
    rcases i with _ | i
    · cases b <;> simp
    · rw [show (BitVec.ofBool b).getLsbD (i + 1) = false from BitVec.getLsbD_of_ge _ _ (by omega)]
      simp only [Nat.add_sub_cancel, List.getD_cons_succ]
      rw [ih i (by omega)]
      simp [hi]

theorem shift_double (v : BitVec 32) (h : v.getLsbD 31 = false) : shift (v <<< 1) = v := by
  have h0 : shift (v <<< 1) = (v <<< 1) >>> 1 := by
    unfold shift register
    rw [if_neg (by simp)]
  rw [h0]
  apply BitVec.eq_of_getLsbD_eq
  intro i hi
  simp only [BitVec.getLsbD_ushiftRight, BitVec.getLsbD_shiftLeft]
  by_cases h31 : i = 31
  · subst h31; rw [h]; simp
  · have : 1 + i < 32 := by omega
    simp [this, show 1 + i - 1 = i by omega]

theorem fold_shifts (bs : List Bool) : ∀ s : BitVec 32, bs.length ≤ 32 → bs.foldl register s = shifts bs.length (s ^^^ val bs) := by
  induction bs with
  | nil => intro s _; simp [val, shifts]
  | cons b r ih =>
    intro s h
    rw [List.length_cons] at h
    rw [List.foldl_cons, ih _ (by omega), register_eq]
    show _ = shifts r.length (shift (s ^^^ val (b :: r)))
    congr 1
    simp only [val]
    rw [← BitVec.xor_assoc, shift_xor (s ^^^ _) (val r <<< 1), shift_double]
    rw [val_bit _ _ (by omega)]
    rw [List.getD_eq_getElem?_getD, List.getElem?_eq_none (by omega)]; rfl

theorem val_byte (b : Byte) : val (bits [b]) = b.setWidth 32 := by
  have h : ∀ i : Fin 256, val (bits [BitVec.ofNat 8 i.val]) = (BitVec.ofNat 8 i.val).setWidth 32 := by decide +kernel
  have := h ⟨b.toNat, b.isLt⟩
  simpa using this

/-- A step of eight bits. -/
theorem fold_byte (s : BitVec 32) (b : Byte) : (bits [b]).foldl register s = shifts 8 (s ^^^ b.setWidth 32) := by
  rw [fold_shifts _ _ (by simp [bits]), val_byte]; rfl

theorem bits_append (x y : List Byte) : bits (x ++ y) = bits x ++ bits y := by
  induction x with
  | nil => rfl
  | cons b r ih => simp only [List.cons_append, bits, ih, List.append_assoc]

theorem bits_cons (b : Byte) (r : List Byte) : bits (b :: r) = bits [b] ++ bits r := bits_append [b] r

theorem one_eq (s : BitVec 32) (b : Byte) (r : List Byte) : one s (b :: r) = some ((bits [b]).foldl register s, r) := by
  unfold one
  have hlt : ((s ^^^ b.setWidth 32) &&& 0xff#32).toNat < 256 := by
    rw [BitVec.toNat_and]
    exact Nat.lt_of_le_of_lt Nat.and_le_right (by decide)
  simp only []
  rw [table _ hlt, fold_byte]
  simp only [Option.map_some]
  congr 2
  have hs : s ^^^ b.setWidth 32 = ((s ^^^ b.setWidth 32) &&& 0xff#32) ^^^ ((s ^^^ b.setWidth 32) &&& ~~~0xff#32) := by
    apply BitVec.eq_of_getLsbD_eq
    intro i hi
    simp only [BitVec.getLsbD_xor, BitVec.getLsbD_and, BitVec.getLsbD_not]
    generalize (0xff#32).getLsbD i = x
    generalize (s.getLsbD i ^^ (b.setWidth 32).getLsbD i) = y
    simp only [hi, decide_true, Bool.true_and]
    cases x <;> cases y <;> rfl
  conv => rhs; rw [hs]
  rw [shifts_xor, shifts_clear 8 ((s ^^^ b.setWidth 32) &&& ~~~0xff#32)]
  · congr 1
    apply BitVec.eq_of_getLsbD_eq
    intro i hi
    simp only [BitVec.getLsbD_ushiftRight, BitVec.getLsbD_xor, BitVec.getLsbD_and, BitVec.getLsbD_not, BitVec.getLsbD_setWidth]
    rw [show b.getLsbD (8 + i) = false from BitVec.getLsbD_of_ge _ _ (by omega)]
    by_cases h : 8 + i < 32
    · have h2 : (0xff#32).getLsbD (8 + i) = false := by
        have : ∀ j : Fin 24, (0xff#32).getLsbD (8 + j.val) = false := by decide
        exact this ⟨i, by omega⟩
      rw [h2]; simp [h]
    · rw [show s.getLsbD (8 + i) = false from BitVec.getLsbD_of_ge _ _ (by omega)]; simp
  · intro i hi
    have h2 : (0xff#32).getLsbD i = true := by
      have : ∀ j : Fin 8, (0xff#32).getLsbD j.val = true := by decide
      exact this ⟨i, hi⟩
    rw [BitVec.getLsbD_and, BitVec.getLsbD_not, h2]; simp

theorem ones_eq (n : Nat) : ∀ (s : BitVec 32) (d : List Byte), n ≤ d.length → ones s d n = some ((bits (d.take n)).foldl register s) := by
  induction n with
  | zero => intro s d _; simp [ones, bits]
  | succ n ih =>
    intro s d h
    rcases d with _ | ⟨b, r⟩
    · simp at h
    · simp only [List.length_cons] at h
      simp only [ones, one_eq, Option.bind_some]
      rw [ih _ _ (by omega), List.take_succ_cons, bits_cons b (r.take n), List.foldl_append]

theorem eight_eq (s : BitVec 32) (d : List Byte) (h : 8 ≤ d.length) :
    eight s d = some ((bits (d.take 8)).foldl register s, d.drop 8) := by
  match d, h with
  | a :: b :: c :: e :: f :: g :: i :: j :: r, _ =>
    simp only [eight, four, two, one_eq, Option.bind_some, List.take_succ_cons, List.take_zero, List.drop_succ_cons, List.drop_zero]
    simp only [← List.foldl_append, ← bits_append, List.cons_append, List.nil_append]

theorem eights_eq (n : Nat) : ∀ (s : BitVec 32) (d : List Byte), n ≤ d.length → eights s d n = some ((bits (d.take n)).foldl register s) := by
  induction n using Nat.strongRecOn with
  | ind n ih =>
    intro s d h
    unfold eights
    by_cases h8 : 8 ≤ n
    · rw [if_pos h8, eight_eq _ _ (by omega), Option.bind_some, ih (n - 8) (by omega) _ _ (by rw [List.length_drop]; omega)]
      rw [← List.foldl_append, ← bits_append]
      have : List.take n d = List.take 8 d ++ List.take (n - 8) (List.drop 8 d) := by
        conv => lhs; rw [show n = 8 + (n - 8) by omega]
        rw [List.take_add]
      rw [this]
    · rw [if_neg h8, ones_eq _ _ _ h]

theorem shift_injective {a b : BitVec 32} (h : shift a = shift b) : a = b := by
  have hx : shift (a ^^^ b) = 0 := by rw [shift_xor, h, BitVec.xor_self]; rfl
  have h31 : ∀ v : BitVec 32, shift v = 0 → v = 0 := by
    intro v hv
    unfold shift register at hv
    by_cases h0 : v.getLsbD 0 = true
    · rw [if_pos (by rw [h0]; simp)] at hv
      have := congrArg (fun x => x.getLsbD 31) hv
      simp only [BitVec.getLsbD_xor, BitVec.getLsbD_ushiftRight] at this
      rw [show v.getLsbD (1 + 31) = false from BitVec.getLsbD_of_ge _ _ (by omega)] at this
      exact absurd this (by decide)
    · have h0 : v.getLsbD 0 = false := by simpa using h0
      rw [if_neg (by rw [h0]; simp)] at hv
      apply BitVec.eq_of_getLsbD_eq
      intro i hi
      rcases i with _ | i
      · rw [h0]; simp
      · have := congrArg (fun x => x.getLsbD i) hv
        simp only [BitVec.getLsbD_ushiftRight] at this
        rw [Nat.add_comm 1 i] at this
        rw [this]; simp
  have := h31 _ hx
  have h2 : a ^^^ b ^^^ b = 0 ^^^ b := by rw [this]
  rw [BitVec.xor_assoc, BitVec.xor_self, BitVec.xor_zero] at h2
  rw [h2]; simp

theorem shifts_injective (n : Nat) : ∀ {a b : BitVec 32}, shifts n a = shifts n b → a = b := by
  induction n with
  | zero => intro a b h; exact h
  | succ n ih => intro a b h; exact shift_injective (ih h)

theorem xor_left_cancel {s a b : BitVec 32} (h : s ^^^ a = s ^^^ b) : a = b := by
  have : s ^^^ (s ^^^ a) = s ^^^ (s ^^^ b) := by rw [h]
  rw [← BitVec.xor_assoc, ← BitVec.xor_assoc, BitVec.xor_self] at this
  simpa using this

/-- The register remembers where it came from. -/
theorem fold_injective (bs : List Bool) : ∀ {s t : BitVec 32}, bs.foldl register s = bs.foldl register t → s = t := by
  induction bs with
  | nil => intro s t h; exact h
  | cons b r ih =>
    intro s t h
    have := ih h
    rw [register_eq, register_eq] at this
    have := shift_injective this
    rw [BitVec.xor_comm s, BitVec.xor_comm t] at this
    exact xor_left_cancel this

/-- The register tells apart what comes in while it is not longer than the register. -/
theorem fold_burst {x y : List Bool} (s : BitVec 32) (hl : x.length = y.length) (h32 : x.length ≤ 32)
    (h : x.foldl register s = y.foldl register s) : x = y := by
  rw [fold_shifts _ _ h32, fold_shifts _ _ (by omega), hl] at h
  have hv := xor_left_cancel (shifts_injective _ h)
  apply List.ext_getElem hl
  intro i h1 h2
  have := congrArg (fun v => v.getLsbD i) hv
  rw [val_bit _ _ (by omega), val_bit _ _ (by omega)] at this
  simpa [List.getD_eq_getElem?_getD, h1, h2] using this

theorem crc32_eq (d : List Byte) (n : Nat) (h : n ≤ d.length) : crc32 0#32 d n = some (checksum (d.take n)) := by
  unfold crc32 checksum
  rw [eights_eq _ _ _ h, show (0#32 ^^^ 0xffffffff#32) = BitVec.allOnes 32 by decide, Option.map_some]
  congr 1
  generalize List.foldl register _ _ = s
  rw [show (0xffffffff#32) = BitVec.allOnes 32 by decide, BitVec.xor_allOnes]

theorem stored_load {little : Bool} {c : List Byte} {v : BitVec 32} (h : Stored little c v) (d : List Byte) : load little (c ++ d) = some v := by
  obtain ⟨f, rfl, hf⟩ := h
  have h0 : (f 0).toNat = v.toNat / 256 ^ (if little then 0 else 3) % 256 := hf 0
  have h1 : (f 1).toNat = v.toNat / 256 ^ (if little then 1 else 2) % 256 := hf 1
  have h2 : (f 2).toNat = v.toNat / 256 ^ (if little then 2 else 1) % 256 := hf 2
  have h3 : (f 3).toNat = v.toNat / 256 ^ (if little then 3 else 0) % 256 := hf 3
  rw [show List.ofFn f = [f 0, f 1, f 2, f 3] from rfl]
  show some _ = some v
  congr 1
  apply BitVec.eq_of_toNat_eq
  rw [BitVec.toNat_ofNat]
  have hv := v.isLt
  cases little <;> simp at h0 h1 h2 h3 ⊢ <;> omega

theorem stored_length {little : Bool} {c : List Byte} {v : BitVec 32} (h : Stored little c v) : c.length = 4 := by
  obtain ⟨f, rfl, _⟩ := h
  simp

theorem stored_exists (little : Bool) (v : BitVec 32) : ∃ c, Stored little c v :=
  ⟨_, fun i => BitVec.ofNat 8 (v.toNat / 256 ^ (if little then i.val else 3 - i.val) % 256), rfl, fun i => by
    rw [BitVec.toNat_ofNat]; omega⟩

theorem stored_only {little : Bool} {a b c d : Byte} {r : List Byte} {v : BitVec 32} (h : load little (a :: b :: c :: d :: r) = some v) :
    Stored little [a, b, c, d] v := by
  refine ⟨fun i => [a, b, c, d][i.val]'(by simp), rfl, ?_⟩
  simp only [load, Option.some.injEq] at h
  have hv := congrArg BitVec.toNat h
  rw [BitVec.toNat_ofNat] at hv
  have ha := a.isLt
  have hb := b.isLt
  have hc := c.isLt
  have hd := d.isLt
  intro i
  match i with
  | 0 => show a.toNat = v.toNat / 256 ^ (if little then 0 else 3) % 256; cases little <;> simp at hv ⊢ <;> omega
  | 1 => show b.toNat = v.toNat / 256 ^ (if little then 1 else 2) % 256; cases little <;> simp at hv ⊢ <;> omega
  | 2 => show c.toNat = v.toNat / 256 ^ (if little then 2 else 1) % 256; cases little <;> simp at hv ⊢ <;> omega
  | 3 => show d.toNat = v.toNat / 256 ^ (if little then 3 else 0) % 256; cases little <;> simp at hv ⊢ <;> omega

theorem cut_eq (k r : List Byte) (h : ∀ b ∈ k, b ≠ 0#8) : cut (k ++ 0#8 :: r) = some (k, r) := by
  induction k with
  | nil => rfl
  | cons b t ih =>
    rw [List.cons_append, cut, if_neg (h b List.mem_cons_self), ih (fun x hx => h x (List.mem_cons_of_mem _ hx))]
    rfl

theorem cut_only {d k r : List Byte} (h : cut d = some (k, r)) : d = k ++ 0#8 :: r ∧ ∀ b ∈ k, b ≠ 0#8 := by
  induction d generalizing k with
  | nil => cases h
  | cons b t ih =>
    unfold cut at h
    by_cases hb : b = 0#8
    · rw [if_pos hb] at h; cases h; subst hb; simp
    · rw [if_neg hb] at h
      rcases hc : cut t with _ | ⟨x, y⟩
      · rw [hc] at h; cases h
      · rw [hc] at h; cases h
        obtain ⟨h1, h2⟩ := ih hc
        refine ⟨by rw [h1]; rfl, ?_⟩
        intro z hz
        rcases List.mem_cons.mp hz with rfl | hz
        · exact hb
        · exact h2 z hz

theorem equals_eq (k v : List Byte) (h : ∀ b ∈ k, b ≠ 61#8) : equals (k ++ 61#8 :: v) = some (k, v) := by
  induction k with
  | nil => rfl
  | cons b t ih =>
    rw [List.cons_append, equals, if_neg (h b List.mem_cons_self), ih (fun x hx => h x (List.mem_cons_of_mem _ hx))]
    rfl

theorem equals_only {s k v : List Byte} (h : equals s = some (k, v)) : s = k ++ 61#8 :: v ∧ ∀ b ∈ k, b ≠ 61#8 := by
  induction s generalizing k with
  | nil => cases h
  | cons b t ih =>
    unfold equals at h
    by_cases hb : b = 61#8
    · rw [if_pos hb] at h; cases h; subst hb; simp
    · rw [if_neg hb] at h
      rcases hc : equals t with _ | ⟨x, y⟩
      · rw [hc] at h; cases h
      · rw [hc] at h; cases h
        obtain ⟨h1, h2⟩ := ih hc
        refine ⟨by rw [h1]; rfl, ?_⟩
        intro z hz
        rcases List.mem_cons.mp hz with rfl | hz
        · exact hb
        · exact h2 z hz

theorem strncmp_prefix (k : List Byte) : ∀ n t : List Byte, strncmp n (k ++ 61#8 :: t) k.length = true ↔ k <+: n := by
  induction k with
  | nil => intro n t; simp [strncmp]
  | cons b r ih =>
    intro n t
    rcases n with _ | ⟨a, n⟩
    · simp [strncmp]
    · simp only [List.cons_append, List.length_cons, strncmp, List.cons_prefix_cons]
      by_cases h : a = b
      · subst h; simp [ih]
      · rw [if_neg h]; simp [Ne.symm h]

theorem text_head {e : List Byte × List Byte} (h : Entry e) (r : List Byte) : ∃ b t, text e ++ 0#8 :: r = b :: t ∧ b ≠ 0#8 ∧ ∀ x ∈ text e, x ≠ 0#8 := by
  obtain ⟨k, v⟩ := e
  have hn : ∀ x ∈ text (k, v), x ≠ 0#8 := by
    intro x hx
    rcases List.mem_append.mp hx with hx | hx
    · exact (h.1 x hx).2
    · rcases List.mem_cons.mp hx with rfl | hx
      · decide
      · exact h.2 x hx
  rcases k with _ | ⟨b, k⟩
  · exact ⟨61#8, v ++ 0#8 :: r, rfl, by decide, hn⟩
  · exact ⟨b, k ++ 61#8 :: v ++ 0#8 :: r, rfl, (h.1 b List.mem_cons_self).2, hn⟩

/-- A turn of the loop. -/
theorem walk_turn {e : List Byte × List Byte} (h : Entry e) (name : Option (List Byte)) (result : Nat) (r out : List Byte) :
    walk name result (text e ++ 0#8 :: r) out =
      match name with
      | none => walk name result r (out ++ text e ++ [10#8])
      | some n => if strncmp n (text e) e.1.length then some (0, out ++ e.2 ++ [10#8]) else walk name result r out := by
  obtain ⟨b, t, ht, hb, hn⟩ := text_head h r
  rw [walk]
  rw [if_neg (by rw [ht]; simp), if_neg (by rw [ht]; simpa using hb)]
  have hc := cut_eq (text e) r hn
  have he := equals_eq e.1 e.2 (fun x hx => (h.1 x hx).1)
  split
  · rename_i hc'; rw [hc] at hc'; cases hc'
  · rename_i k r' hc'
    rw [hc] at hc'
    cases hc'
    rw [show equals (text e) = some (e.1, e.2) from he]
    rfl

theorem layout_cons (e : List Byte × List Byte) (env : List (List Byte × List Byte)) (pad : List Byte) :
    layout (e :: env) ++ pad = text e ++ 0#8 :: (layout env ++ pad) := by
  simp [layout, List.append_assoc]

theorem walk_end (name : Option (List Byte)) (result : Nat) (pad out : List Byte) : walk name result (layout [] ++ pad) out = some (result, out) := by
  rw [walk]; simp [layout]

theorem walk_list (env : List (List Byte × List Byte)) (pad : List Byte) (result : Nat) : ∀ out, (∀ e ∈ env, Entry e) →
    walk none result (layout env ++ pad) out = some (result, out ++ env.flatMap fun e => text e ++ [10#8]) := by
  induction env with
  | nil => intro out _; rw [walk_end]; simp
  | cons e env ih =>
    intro out h
    rw [layout_cons, walk_turn (h e List.mem_cons_self)]
    simp only []
    rw [ih _ (fun x hx => h x (List.mem_cons_of_mem _ hx))]
    simp [List.append_assoc]

theorem walk_none (env : List (List Byte × List Byte)) (pad n : List Byte) (result : Nat) (out : List Byte) : (∀ e ∈ env, Entry e) → (∀ e ∈ env, ¬ e.1 <+: n) →
    walk (some n) result (layout env ++ pad) out = some (result, out) := by
  induction env with
  | nil => intro _ _; rw [walk_end]
  | cons e env ih =>
    intro h hp
    rw [layout_cons, walk_turn (h e List.mem_cons_self)]
    simp only []
    rw [if_neg, ih (fun x hx => h x (List.mem_cons_of_mem _ hx)) (fun x hx => hp x (List.mem_cons_of_mem _ hx))]
    rw [text, strncmp_prefix]
    exact hp e List.mem_cons_self

theorem walk_found (pre post : List (List Byte × List Byte)) (e : List Byte × List Byte) (pad n : List Byte) (result : Nat) (out : List Byte) :
    (∀ x ∈ pre ++ e :: post, Entry x) → e.1 <+: n → (∀ x ∈ pre, ¬ x.1 <+: n) →
    walk (some n) result (layout (pre ++ e :: post) ++ pad) out = some (0, out ++ e.2 ++ [10#8]) := by
  induction pre with
  | nil =>
    intro h hp _
    rw [List.nil_append, layout_cons, walk_turn (h e (by simp))]
    simp only []
    rw [if_pos]
    rw [text, strncmp_prefix]; exact hp
  | cons x pre ih =>
    intro h hp hn
    rw [List.cons_append, layout_cons, walk_turn (h x (by simp))]
    simp only []
    rw [if_neg, ih (fun y hy => h y (by simp at hy ⊢; right; exact hy)) hp (fun y hy => hn y (List.mem_cons_of_mem _ hy))]
    rw [text, strncmp_prefix]
    exact hn x List.mem_cons_self

/-- What the loop gets through is a layout. -/
theorem walk_only (n : Nat) : ∀ (d out o : List Byte) (result r : Nat), d.length ≤ n → walk none result d out = some (r, o) →
    ∃ env pad, d = layout env ++ pad ∧ (∀ e ∈ env, Entry e) ∧ r = result ∧ o = out ++ env.flatMap fun e => text e ++ [10#8] := by
  induction n with
  | zero =>
    intro d out o result r hn h
    have : d = [] := List.eq_nil_of_length_eq_zero (by omega)
    subst this
    rw [walk] at h; simp at h
  | succ n ih =>
    intro d out o result r hn h
    rw [walk] at h
    by_cases h0 : d.head? = none
    · rw [if_pos h0] at h; cases h
    · rw [if_neg h0] at h
      by_cases h1 : d.head? = some 0#8
      · rw [if_pos h1] at h
        cases h
        rcases d with _ | ⟨b, t⟩
        · cases h1
        · simp at h1; subst h1
          exact ⟨[], t, by simp [layout], by simp, rfl, by simp⟩
      · rw [if_neg h1] at h
        split at h
        · cases h
        · rename_i k rest hc
          rcases he : equals k with _ | ⟨a, v⟩
          · rw [he] at h; cases h
          · rw [he] at h
            simp only [] at h
            have hlt := cut_lt hc
            obtain ⟨env, pad, h2, h3, h4, h5⟩ := ih rest _ _ _ _ (by omega) h
            obtain ⟨hk, hkn⟩ := cut_only hc
            obtain ⟨hv, hvn⟩ := equals_only he
            have hk' : k = text (a, v) := hv
            refine ⟨(a, v) :: env, pad, ?_, ?_, h4, ?_⟩
            · rw [layout_cons, ← h2, ← hk', hk]
            · intro e hx
              rcases List.mem_cons.mp hx with rfl | hx
              · refine ⟨fun b hb => ⟨hvn b hb, hkn b (by rw [hv]; simp [hb])⟩, fun b hb => hkn b (by rw [hv]; simp [hb])⟩
              · exact h3 e hx
            · rw [h5, hk']; simp [List.append_assoc]

theorem valid_main {little : Bool} {env : List (List Byte × List Byte)} {memory : List Byte} (h : Valid little env memory) (usage : List Byte) (arg : Option (List Byte))
    (ha : arg ≠ some [45#8, 63#8]) (unmaps : Bool) :
    ∃ pad, (∀ e ∈ env, Entry e) ∧ main little usage arg.toList (some memory) unmaps =
      match walk arg (if arg = none then 0 else 4) (layout env ++ pad) [] with
      | none => .undefined
      | some (result, out) => .exit (if unmaps then result else 5) out := by
  obtain ⟨c, pad, hm, hl, hs, he⟩ := h
  refine ⟨pad, he, ?_⟩
  have h4 := stored_length hs
  have hd : memory.drop 4 = layout env ++ pad := by rw [hm, List.drop_append_of_le_length (by omega), List.drop_of_length_le (by omega)]; rfl
  have hdl : (layout env ++ pad).length = 8188 := by rw [← hd, List.length_drop]; omega
  unfold main
  rw [if_neg (by cases arg <;> simp)]
  have hh : arg.toList.head? = arg := by cases arg <;> rfl
  rw [hh, if_neg ha]
  simp only []
  rw [hd, crc32_eq _ _ (by rw [hdl]; decide), List.take_of_length_le (by rw [hdl]; decide)]
  rw [show load little memory = some _ by rw [hm]; exact stored_load hs _]
  simp only []
  rw [if_neg (by simp)]
  rcases walk arg _ _ _ with _ | ⟨r, o⟩ <;> rfl

/-- There is memory with a valid environment of entries that fit in. -/
theorem uboot_valid (little : Bool) (env : List (List Byte × List Byte)) (h : ∀ e ∈ env, Entry e) (hl : (layout env).length ≤ 8188) :
    ∃ memory, Valid little env memory := by
  obtain ⟨c, hc⟩ := stored_exists little (checksum (layout env ++ List.replicate (8188 - (layout env).length) 255#8))
  refine ⟨_, c, _, rfl, ?_, hc, h⟩
  have := stored_length hc
  simp only [List.length_append, List.length_replicate]
  omega

/-- The environment with `boot` and `bootdelay`. -/
def boot : List (List Byte × List Byte) :=
  [([98#8, 111#8, 111#8, 116#8], [110#8]), ([98#8, 111#8, 111#8, 116#8, 100#8, 101#8, 108#8, 97#8, 121#8], [53#8])]

end Diminuto.Uboot
