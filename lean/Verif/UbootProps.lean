import Verif.UbootLemmas

/-!
# Properties of the tool that reads the environment of U-Boot
-/

namespace Diminuto.Uboot

/-- The checksum with the table is CRC-32 of IEEE 802.3; neither the table nor the memory is read beyond its end. -/
theorem uboot_crc (d : List Byte) (n : Nat) (h : n ≤ d.length) : crc32 0#32 d n = some (checksum (d.take n)) := crc32_eq d n h

/-- The usual check value: the digits from 1 to 9. -/
example : crc32 0#32 [49#8, 50#8, 51#8, 52#8, 53#8, 54#8, 55#8, 56#8, 57#8] 9 = some 0xcbf43926#32 := by
  rw [uboot_crc _ _ (by simp)]; decide +kernel

/-- The checksum of a part can be carried on with the rest. -/
theorem uboot_crc_carries (a b : List Byte) (c : BitVec 32) (h : crc32 0#32 a a.length = some c) :
    crc32 c b b.length = crc32 0#32 (a ++ b) (a ++ b).length := by
  rw [crc32_eq _ _ (Nat.le_refl _), List.take_length] at h
  rw [crc32_eq _ _ (Nat.le_refl _), List.take_length]
  cases h
  unfold crc32
  rw [eights_eq _ _ _ (Nat.le_refl _), List.take_length, Option.map_some]
  unfold checksum
  rw [bits_append, List.foldl_append]
  generalize (bits a).foldl register (BitVec.allOnes 32) = s
  rw [show (0xffffffff#32) = BitVec.allOnes 32 by decide, BitVec.xor_allOnes, BitVec.xor_allOnes, BitVec.not_not]

example : crc32 0xcbf43926#32 [97#8] 1 = crc32 0#32 ([49#8, 50#8, 51#8, 52#8, 53#8, 54#8, 55#8, 56#8, 57#8] ++ [97#8]) 10 :=
  uboot_crc_carries [49#8, 50#8, 51#8, 52#8, 53#8, 54#8, 55#8, 56#8, 57#8] [97#8] _ (by rw [uboot_crc _ _ (by simp)]; decide +kernel)

/-- A change within 32 bits that follow each other always changes the checksum. -/
theorem uboot_crc_burst {d d' : List Byte} {p x y q : List Bool} (h : bits d = p ++ (x ++ q)) (h' : bits d' = p ++ (y ++ q)) (hl : x.length = y.length)
    (h32 : x.length ≤ 32) (hne : x ≠ y) : checksum d ≠ checksum d' := by
  intro hc
  unfold checksum at hc
  have hc := congrArg (fun v => ~~~v) hc
  simp only [BitVec.not_not] at hc
  rw [h, h', List.foldl_append, List.foldl_append, List.foldl_append, List.foldl_append] at hc
  exact hne (fold_burst _ hl h32 (fold_injective q hc))

/-- A flip of the middle two bits of a byte. -/
example : ∃ p x y q, bits [97#8, 61#8, 98#8] = p ++ (x ++ q) ∧ bits [97#8, 37#8, 98#8] = p ++ (y ++ q) ∧ x.length = y.length ∧ x.length ≤ 32 ∧ x ≠ y :=
  ⟨bits [97#8] ++ [true, false, true], [true, true], [false, false], [true, false, false] ++ bits [98#8], by decide⟩

/-- A change within 33 bits may not change the checksum: the polynomial itself. -/
theorem uboot_crc_longer_counterexample : checksum [0#8, 0#8, 0#8, 0#8, 0#8] = checksum [0x41#8, 0x06#8, 0x71#8, 0xdb#8, 0x01#8] := by decide +kernel

/-- Without an argument it prints each entry of a valid environment on a line of its own, in order. -/
theorem uboot_lists {little : Bool} {env : List (List Byte × List Byte)} {memory : List Byte} (h : Valid little env memory) (usage : List Byte) :
    main little usage [] (some memory) true = .exit 0 (env.flatMap fun e => text e ++ [10#8]) := by
  obtain ⟨pad, he, hm⟩ := valid_main h usage none (by simp) true
  rw [show (none : Option (List Byte)).toList = [] from rfl] at hm
  rw [hm, walk_list _ _ _ _ he]
  simp

example : ∃ memory, Valid true boot memory := uboot_valid true boot (by unfold Entry boot; decide) (by decide)

/-- Only a valid environment gets printed: if the program comes to the end of its loop, the memory holds one, and that is what has been printed. -/
theorem uboot_lists_only {little : Bool} {memory : List Byte} (hl : memory.length = 8192) {usage out : List Byte}
    (h : main little usage [] (some memory) true = .exit 0 out) : ∃ env, Valid little env memory ∧ out = env.flatMap fun e => text e ++ [10#8] := by
  have h4 : 4 ≤ memory.length := by omega
  match memory, h4 with
  | a :: b :: c :: d :: data, _ =>
    have hdl : data.length = 8188 := by simp only [List.length_cons] at hl; omega
    unfold main at h
    rw [if_neg (by simp), if_neg (by simp)] at h
    simp only [] at h
    rw [show List.drop 4 (a :: b :: c :: d :: data) = data from rfl, crc32_eq _ _ (by rw [hdl]; decide), List.take_of_length_le (by rw [hdl]; decide)] at h
    rcases hs : load little (a :: b :: c :: d :: data) with _ | v
    · rw [hs] at h; cases h
    · rw [hs] at h
      simp only [] at h
      by_cases hv : v ≠ checksum data
      · rw [if_pos hv] at h; cases h
      · rw [if_neg hv] at h
        have hv : v = checksum data := Classical.not_not.mp hv
        rcases hw : walk ([] : List (List Byte)).head? (if ([] : List (List Byte)).head? = none then 0 else 4) data [] with _ | ⟨r, o⟩
        · rw [hw] at h; cases h
        · rw [hw] at h
          cases h
          obtain ⟨env, pad, h1, h2, h3, h4⟩ := walk_only _ _ _ _ _ _ (Nat.le_refl _) hw
          refine ⟨env, ⟨[a, b, c, d], pad, ?_, hl, ?_, h2⟩, by rw [h4]; rfl⟩
          · rw [← h1]; rfl
          · rw [← h1, ← hv]; exact stored_only hs

/-- With the name of an entry it should print the value of the first entry with this name, and fail with a status of 4 if there is none.  It does so if no entry has a name that
is only a part of the beginning of the wanted one. -/
theorem uboot_looks_up_partial {little : Bool} {env : List (List Byte × List Byte)} {memory : List Byte} (h : Valid little env memory) (usage n : List Byte)
    (hn : n ≠ [45#8, 63#8]) (hp : ∀ e ∈ env, e.1 <+: n → e.1 = n) :
    (∀ pre v post, env = pre ++ (n, v) :: post → (∀ e ∈ pre, e.1 ≠ n) → main little usage [n] (some memory) true = .exit 0 (v ++ [10#8])) ∧
    ((∀ e ∈ env, e.1 ≠ n) → main little usage [n] (some memory) true = .exit 4 []) := by
  obtain ⟨pad, he, hm⟩ := valid_main h usage (some n) (by simpa using hn) true
  rw [show (some n).toList = [n] from rfl] at hm
  constructor
  · intro pre v post henv hpre
    subst henv
    rw [hm, walk_found pre post (n, v) pad n _ _ he (List.prefix_refl n)]
    · simp
    · intro x hx hpx
      exact hpre x hx (hp x (by simp [hx]) hpx)
  · intro hno
    rw [hm, walk_none _ _ _ _ _ he (fun e hx hpx => hno e hx (hp e hx hpx))]
    simp

example : ∃ memory, Valid true boot memory ∧ (∀ e ∈ boot, e.1 <+: [98#8, 111#8, 111#8, 116#8] → e.1 = [98#8, 111#8, 111#8, 116#8]) ∧
    main true [] [[98#8, 111#8, 111#8, 116#8]] (some memory) true = .exit 0 [110#8, 10#8] := by
  obtain ⟨m, hm⟩ := uboot_valid true boot (by unfold Entry boot; decide) (by decide)
  have hp : ∀ e ∈ boot, e.1 <+: [98#8, 111#8, 111#8, 116#8] → e.1 = [98#8, 111#8, 111#8, 116#8] := by unfold boot; decide
  exact ⟨m, hm, hp, (uboot_looks_up_partial hm [] _ (by decide) hp).1 [] [110#8] _ rfl (by simp)⟩

/-- What it does in any case: it prints the value of the first entry whose name is a beginning of the wanted one. -/
theorem uboot_looks_up_prefix {little : Bool} {env : List (List Byte × List Byte)} {memory : List Byte} (h : Valid little env memory) (usage n : List Byte)
    (hn : n ≠ [45#8, 63#8]) :
    (∀ pre e post, env = pre ++ e :: post → e.1 <+: n → (∀ x ∈ pre, ¬ x.1 <+: n) → main little usage [n] (some memory) true = .exit 0 (e.2 ++ [10#8])) ∧
    ((∀ e ∈ env, ¬ e.1 <+: n) → main little usage [n] (some memory) true = .exit 4 []) := by
  obtain ⟨pad, he, hm⟩ := valid_main h usage (some n) (by simpa using hn) true
  rw [show (some n).toList = [n] from rfl] at hm
  constructor
  · intro pre e post henv hep hpre
    subst henv
    rw [hm, walk_found pre post e pad n _ _ he hep hpre]
    simp
  · intro hno
    rw [hm, walk_none _ _ _ _ _ he hno]
    simp

/-- The value of `boot` gets printed for `bootdelay`, although there is an entry with that name, and also for `bootcmd`, although there is none. -/
theorem uboot_looks_up_counterexample : ∃ memory, Valid true boot memory ∧
    main true [] [[98#8, 111#8, 111#8, 116#8, 100#8, 101#8, 108#8, 97#8, 121#8]] (some memory) true = .exit 0 [110#8, 10#8] ∧
    main true [] [[98#8, 111#8, 111#8, 116#8, 99#8, 109#8, 100#8]] (some memory) true = .exit 0 [110#8, 10#8] := by
  obtain ⟨m, hm⟩ := uboot_valid true boot (by unfold Entry boot; decide) (by decide)
  exact ⟨m, hm, (uboot_looks_up_prefix hm [] _ (by decide)).1 [] ([98#8, 111#8, 111#8, 116#8], [110#8]) _ rfl (by decide) (by simp),
    (uboot_looks_up_prefix hm [] _ (by decide)).1 [] ([98#8, 111#8, 111#8, 116#8], [110#8]) _ rfl (by decide) (by simp)⟩

/-- Nothing of an environment is printed if its checksum is not the stored one. -/
theorem uboot_mismatch {little : Bool} {c d : List Byte} {v : BitVec 32} (hs : Stored little c v) (hl : d.length = 8188) (hv : v ≠ checksum d) (usage : List Byte)
    (arg : Option (List Byte)) (ha : arg ≠ some [45#8, 63#8]) (unmaps : Bool) : main little usage arg.toList (some (c ++ d)) unmaps = .exit 3 [] := by
  have h4 := stored_length hs
  have hd : (c ++ d).drop 4 = d := by rw [List.drop_append_of_le_length (by omega), List.drop_of_length_le (by omega)]; rfl
  unfold main
  rw [if_neg (by cases arg <;> simp)]
  have hh : arg.toList.head? = arg := by cases arg <;> rfl
  rw [hh, if_neg ha]
  simp only []
  rw [hd, crc32_eq _ _ (by rw [hl]; decide), List.take_of_length_le (by rw [hl]; decide), stored_load hs]
  simp only []
  rw [if_pos hv]

/-- So if up to 32 bits of a valid environment that follow each other get changed, or the stored checksum does, nothing is printed, and the status is 3. -/
theorem uboot_corrupt {little : Bool} {env : List (List Byte × List Byte)} {c d : List Byte} (h : Valid little env (c ++ d)) (h4 : c.length = 4)
    {d' : List Byte} {p x y q : List Bool} (hd : bits d = p ++ (x ++ q)) (hd' : bits d' = p ++ (y ++ q)) (hl : x.length = y.length) (h32 : x.length ≤ 32) (hne : x ≠ y)
    (usage : List Byte) (arg : Option (List Byte)) (ha : arg ≠ some [45#8, 63#8]) (unmaps : Bool) :
    main little usage arg.toList (some (c ++ d')) unmaps = .exit 3 [] := by
  obtain ⟨c', pad, hm, hlen, hs, _⟩ := h
  have hcc := List.append_inj hm (by rw [h4, stored_length hs])
  obtain ⟨rfl, hdd⟩ := hcc
  rw [← hdd] at hs
  have hbits : ∀ z : List Byte, (bits z).length = 8 * z.length := by
    intro z
    induction z with
    | nil => rfl
    | cons b r ih => simp only [bits, List.length_append, List.length_cons, List.length_nil, ih]; omega
  have h1 := hbits d
  have h2 := hbits d'
  rw [hd] at h1
  rw [hd'] at h2
  simp only [List.length_append] at h1 h2 hlen
  exact uboot_mismatch hs (by omega) (uboot_crc_burst hd hd' hl h32 hne) usage arg ha unmaps

example : ∃ c d d' p x y q, Valid true [] (c ++ d) ∧ c.length = 4 ∧ bits d = p ++ (x ++ q) ∧ bits d' = p ++ (y ++ q) ∧ x.length = y.length ∧ x.length ≤ 32 ∧ x ≠ y := by
  obtain ⟨n, hn⟩ : ∃ n, n = 8187 := ⟨_, rfl⟩
  obtain ⟨c, hc⟩ := stored_exists true (checksum (layout [] ++ List.replicate n 255#8))
  refine ⟨c, layout [] ++ List.replicate n 255#8, 97#8 :: List.replicate n 255#8, [], bits [0#8], bits [97#8], bits (List.replicate n 255#8),
    ⟨c, List.replicate n 255#8, rfl, ?_, hc, by simp⟩, stored_length hc, ?_, ?_, by decide, by decide, by decide⟩
  · have := stored_length hc
    simp only [List.length_append, List.length_replicate, layout, List.flatMap_nil, List.length_cons, List.length_nil]
    omega
  · rw [show layout [] = [0#8] from rfl, bits_append]; rfl
  · rw [bits_cons]; rfl

/-- A matching checksum does not mean that the environment is well formed: without a `=`, and without a NUL, the behaviour is not defined. -/
theorem uboot_malformed_counterexample :
    (∃ c d, d.length = 8188 ∧ Stored true c (checksum d) ∧ (∃ r, d = [97#8, 0#8, 0#8] ++ r) ∧ main true [] [[97#8]] (some (c ++ d)) true = .undefined) ∧
    (∃ c d, d.length = 8188 ∧ Stored true c (checksum d) ∧ (∀ b ∈ d, b = 97#8) ∧ main true [] [[97#8]] (some (c ++ d)) true = .undefined) := by
  have key : ∀ d : List Byte, d.length = 8188 → walk (some [97#8]) 4 d [] = none → ∃ c, Stored true c (checksum d) ∧
      main true [] [[97#8]] (some (c ++ d)) true = .undefined := by
    intro d hl hw
    obtain ⟨c, hc⟩ := stored_exists true (checksum d)
    have h4 := stored_length hc
    have hdrop : (c ++ d).drop 4 = d := by rw [List.drop_append_of_le_length (by omega), List.drop_of_length_le (by omega)]; rfl
    refine ⟨c, hc, ?_⟩
    unfold main
    rw [if_neg (by simp), if_neg (by decide)]
    simp only []
    rw [hdrop, crc32_eq _ _ (by rw [hl]; decide), List.take_of_length_le (by rw [hl]; decide), stored_load hc]
    simp only []
    rw [if_neg (by simp)]
    rw [show (if [[97#8]].head? = none then 0 else 4) = 4 from rfl, show [[97#8]].head? = some [97#8] from rfl, hw]
  constructor
  · obtain ⟨n, hn⟩ : ∃ n, n = 8185 := ⟨_, rfl⟩
    have hl : ([97#8, 0#8, 0#8] ++ List.replicate n 0#8 : List Byte).length = 8188 := by
      rw [List.length_append, List.length_replicate]; simp only [List.length_cons, List.length_nil]; omega
    obtain ⟨c, h1, h2⟩ := key _ hl (by
      rw [walk, if_neg (by simp), if_neg (by simp)]
      have : cut ([97#8, 0#8, 0#8] ++ List.replicate n 0#8) = some ([97#8], 0#8 :: List.replicate n 0#8) := cut_eq [97#8] _ (by decide)
      split
      · rfl
      · rename_i k r hk
        rw [this] at hk
        cases hk
        rfl)
    exact ⟨c, _, hl, h1, ⟨_, rfl⟩, h2⟩
  · obtain ⟨n, hn⟩ : ∃ n, n = 8187 := ⟨_, rfl⟩
    have hno : ∀ n, cut (List.replicate n 97#8) = none := by
      intro n
      induction n with
      | zero => rfl
      | succ n ih => rw [List.replicate_succ, cut, if_neg (by decide), ih]; rfl
    have hl : (List.replicate (n + 1) 97#8 : List Byte).length = 8188 := by rw [List.length_replicate]; omega
    obtain ⟨c, h1, h2⟩ := key _ hl (by
      rw [walk, if_neg (by simp [List.replicate_succ]), if_neg (by simp [List.replicate_succ])]
      split
      · rfl
      · rename_i k r hk
        rw [hno] at hk
        cases hk)
    exact ⟨c, _, hl, h1, fun b hb => List.eq_of_mem_replicate hb, h2⟩

/-- The other statuses: 1 for too many arguments, 0 with the usage for `-?`, 2 if the memory cannot be mapped, and 5 if it cannot be unmapped, although the entries are printed. -/
theorem uboot_status (little : Bool) (usage : List Byte) (mapped : Option (List Byte)) (unmaps : Bool) :
    (∀ args, 2 ≤ args.length → main little usage args mapped unmaps = .exit 1 []) ∧
    main little usage [[45#8, 63#8]] mapped unmaps = .exit 0 usage ∧
    (∀ args, args.length ≤ 1 → args ≠ [[45#8, 63#8]] → main little usage args none unmaps = .exit 2 []) ∧
    (∀ env memory, Valid little env memory → main little usage [] (some memory) false = .exit 5 (env.flatMap fun e => text e ++ [10#8])) := by
  refine ⟨?_, ?_, ?_, ?_⟩
  · intro args h
    unfold main
    rw [if_pos (by omega)]
  · unfold main
    rw [if_neg (by simp), if_pos (by rfl)]
  · intro args h hn
    unfold main
    rw [if_neg (by omega), if_neg]
    intro hh
    rcases args with _ | ⟨a, _ | ⟨b, r⟩⟩
    · cases hh
    · cases hh; exact hn rfl
    · simp at h
  · intro env memory h
    obtain ⟨pad, he, hm⟩ := valid_main h usage none (by simp) false
    rw [show (none : Option (List Byte)).toList = [] from rfl] at hm
    rw [hm, walk_list _ _ _ _ he]
    simp

example : main true [] [[97#8], [98#8]] none true = .exit 1 [] := (uboot_status true [] none true).1 _ (by decide)

end Diminuto.Uboot
