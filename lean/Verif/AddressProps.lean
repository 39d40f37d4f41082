import Verif.AddressLemmas

/-!
# Properties: internet addresses
-/

namespace Diminuto.Address

/-! ## Representation -/

/-- Whatever the byte order of the host and whatever has been in the memory, an IPv4 address is embedded in IPv6 just as RFC 4291 says. -/
theorem address_embed (le : Bool) (old : V6) (a : V4) : words (ipv4toipv6 le old a) = mapped a.toNat := by
  refine words_eq (fun j => ipv4toipv6_words le old a j) fun j hj => ?_
  unfold mapped
  rw [if_neg (by omega), if_neg (by omega), if_neg (by omega)]

/-- An IPv4 address is found in an IPv6 address exactly if it is embedded in it. -/
theorem address_extract (le : Bool) (a : V6) (x : V4) : ipv6toipv4 le a = some x ↔ words a = mapped x.toNat := by
  have hval := ipv6toipv4_value le a
  have h6 := (a 6).isLt
  have h7 := (a 7).isLt
  unfold ipv6toipv4
  constructor
  · intro h
    by_cases hm : isV4mapped le a = true
    · rw [if_pos hm, Option.some.injEq] at h
      rw [h] at hval
      obtain ⟨h0, h1, h2, h3, h4, h5⟩ := (isV4mapped_iff le a).1 hm
      refine words_eq (forall_fin8.2 ⟨?_, ?_, ?_, ?_, ?_, ?_, ?_, ?_⟩) fun j hj => ?_
      · rw [h0]; rfl
      · rw [h1]; rfl
      · rw [h2]; rfl
      · rw [h3]; rfl
      · rw [h4]; rfl
      · rw [h5]; rfl
      · show _ = x.toNat / 65536
        omega
      · show _ = x.toNat % 65536
        omega
      · unfold mapped
        rw [if_neg (by omega), if_neg (by omega), if_neg (by omega)]
    · rw [if_neg hm] at h
      cases h
  · intro h
    have w : ∀ j : Fin 8, (a j).toNat = mapped x.toNat j := by
      intro j
      rw [← h]
      unfold words
      rw [dif_pos j.isLt]
    have w6 : (a 6).toNat = x.toNat / 65536 := w 6
    have w7 : (a 7).toNat = x.toNat % 65536 := w 7
    rw [if_pos ((isV4mapped_iff le a).2 ⟨BitVec.eq_of_toNat_eq (w 0), BitVec.eq_of_toNat_eq (w 1), BitVec.eq_of_toNat_eq (w 2), BitVec.eq_of_toNat_eq (w 3),
      BitVec.eq_of_toNat_eq (w 4), BitVec.eq_of_toNat_eq (w 5)⟩), Option.some.injEq]
    apply BitVec.eq_of_toNat_eq
    omega

/-- An IPv4 address that is embedded is found again. -/
theorem address_round_trip (le : Bool) (old : V6) (a : V4) : ipv6toipv4 le (ipv4toipv6 le old a) = some a :=
  (address_extract le _ a).2 (address_embed le old a)

/-- The address of a socket address is what its bytes are in network byte order, with that of IPv4 embedded, and so is the port; anything else is an error with no
address and no port. -/
theorem address_identify (le : Bool) (old : V6) (s : Sock) :
    match s with
    | .in6 p b => (identify6 le old s).1 = 0 ∧ (∀ j : Fin 8, ((identify6 le old s).2.1 j).toNat = number (fun i => b (2 * j + i)) 2) ∧
        (identify6 le old s).2.2.toNat = number p 2 ∧ identify4 le s = (-1, 0, 0)
    | .in4 p b => (identify6 le old s).1 = 0 ∧ words (identify6 le old s).2.1 = mapped (number b 4) ∧ (identify6 le old s).2.2.toNat = number p 2 ∧
        (identify4 le s).1 = 0 ∧ (identify4 le s).2.1.toNat = number b 4 ∧ (identify4 le s).2.2.toNat = number p 2
    | .other => (identify6 le old s).1 = -1 ∧ (∀ j, (identify6 le old s).2.1 j = 0) ∧ (identify6 le old s).2.2 = 0 ∧ identify4 le s = (-1, 0, 0) := by
  cases s with
  | in6 p b => exact ⟨rfl, fun j => swap6_load le b j, swap_load16 le p, rfl⟩
  | in4 p b => exact ⟨rfl, (value_identify le old (.in4 p b) rfl).1, swap_load16 le p, rfl, swap_load32 le b, swap_load16 le p⟩
  | other => exact ⟨rfl, fun _ => rfl, rfl, rfl⟩

/-- A socket address that is made from an address and a port has their bytes in network byte order. -/
theorem address_socket (le : Bool) (port : BitVec 16) :
    (∀ a : V6, ∃ p b, socket6 le a port = .in6 p b ∧ number p 2 = port.toNat ∧ ∀ j : Fin 8, number (fun i => b (2 * j + i)) 2 = (a j).toNat) ∧
    (∀ a : V4, ∃ p b, socket4 le a port = .in4 p b ∧ number p 2 = port.toNat ∧ number b 4 = a.toNat) := by
  have hp : number (bytes16 le (swap16 le port)) 2 = port.toNat := by
    rw [number2, (bytes_swap16 le port).1, (bytes_swap16 le port).2]
    omega
  refine ⟨fun a => ⟨_, _, rfl, hp, fun j => ?_⟩, fun a => ⟨_, _, rfl, hp, ?_⟩⟩
  · have h0 := mem_word le (swap6 le a) j 0 (by omega)
    have h1 := mem_word le (swap6 le a) j 1 (by omega)
    rw [number2, h0, h1, swap6_eq, (bytes_swap16 le (a j)).1, (bytes_swap16 le (a j)).2]
    omega
  · obtain ⟨b0, b1, b2, b3⟩ := bytes_swap32 le a
    have := a.isLt
    rw [number4, b0, b1, b2, b3]
    omega

/-- On both kinds of host, 192.0.2.33 is ::ffff:c000:0221, as a port 8080 is 1f90. -/
example : words (ipv4toipv6 true UNSPECIFIED 0xc0000221) = mapped 0xc0000221 ∧ mapped 0xc0000221 6 = 0xc000 ∧ mapped 0xc0000221 7 = 0x0221 ∧
    ipv6toipv4 false (ipv4toipv6 false LOOPBACK 0xc0000221) = some 0xc0000221 ∧ ipv6toipv4 true LOOPBACK = none ∧
    bytes16 true (swap16 true 8080) 0 = 0x1f ∧ bytes16 false (swap16 false 8080) 0 = 0x1f :=
  ⟨address_embed _ _ _, rfl, rfl, address_round_trip _ _ _, by decide, by decide, by decide⟩

/-! ## The addresses of a host -/

/-- The array of the addresses of a host is as large as it has to be, and what is in it before the end is a part of the list, in order.  If no address in the list is
"::", every address is in it, and there is no other. -/
theorem address_list_partial (le : Bool) (old : V6) (l : List (Option Sock)) :
    ∃ r, addresses le old l = some r ∧ List.Sublist ((seen r).map words) (l.filterMap value) ∧
      ((fun _ => 0) ∉ l.filterMap value → r = seen r ++ [UNSPECIFIED] ∧ ∀ f, f ∈ (seen r).map words ↔ f ∈ l.filterMap value) := by
  refine ⟨_, addresses_eq le old l, ((seen_prefix _).1.sublist.map words).trans (stored_sublist le old l none), fun hz => ?_⟩
  rw [seen_all fun h => hz ((stored_sublist le old l none).subset h)]
  refine ⟨rfl, fun f => ⟨fun h => (stored_sublist le old l none).subset h, fun h => ?_⟩⟩
  rcases stored_complete le old l none h with h | ⟨y, hy, _⟩
  · exact h
  · cases hy

/-- If all addresses are of the same kind, none is in the array twice in succession. -/
theorem address_list_apart_partial (le : Bool) (old : V6) (l : List (Option Sock))
    (hl : (∀ y, y ∈ l → ∃ p b, y = some (.in6 p b)) ∨ ∀ y, y ∈ l → ∃ p b, y = some (.in4 p b)) (hz : (fun _ => 0) ∉ l.filterMap value) :
    ∃ r, addresses le old l = some r ∧ Apart ((seen r).map words) := by
  refine ⟨_, addresses_eq le old l, ?_⟩
  rw [seen_all fun h => hz ((stored_sublist le old l none).subset h)]
  cases l with
  | nil => exact trivial
  | cons x l =>
    rcases hl with hl | hl
    · rcases stored_cons le old none x l with ⟨hr, _⟩ | ⟨_, a, e, hv⟩
      · obtain ⟨p, b, rfl⟩ := hl _ (List.mem_cons_self ..)
        simp [redundant] at hr
      · rw [e]
        refine stored_chain le old (fun s => ∃ p b, s = .in6 p b) (.inl fun s h => h) l x ?_ ?_ _ hv
        · obtain ⟨p, b, h⟩ := hl _ (List.mem_cons_self ..); exact ⟨_, h, p, b, rfl⟩
        · intro y hy; obtain ⟨p, b, h⟩ := hl y (List.mem_cons_of_mem _ hy); exact ⟨_, h, p, b, rfl⟩
    · rcases stored_cons le old none x l with ⟨hr, _⟩ | ⟨_, a, e, hv⟩
      · obtain ⟨p, b, rfl⟩ := hl _ (List.mem_cons_self ..)
        simp [redundant] at hr
      · rw [e]
        refine stored_chain le old (fun s => ∃ p b, s = .in4 p b) (.inr fun s h => h) l x ?_ ?_ _ hv
        · obtain ⟨p, b, h⟩ := hl _ (List.mem_cons_self ..); exact ⟨_, h, p, b, rfl⟩
        · intro y hy; obtain ⟨p, b, h⟩ := hl y (List.mem_cons_of_mem _ hy); exact ⟨_, h, p, b, rfl⟩

/-- If a host has "::" among its addresses, a caller sees none that come after it. -/
theorem address_list_counterexample : ∃ l : List (Option Sock), mapped 0x0a000001 ∈ l.filterMap value ∧
    ∀ le old, ∃ r, addresses le old l = some r ∧ seen r = [] := by
  refine ⟨[some (.in6 (fun _ => 0) fun _ => 0), some (.in4 (fun _ => 0) fun i => if i = 0 then 10 else if i = 3 then 1 else 0)], ?_, fun le old => ⟨_, addresses_eq .., ?_⟩⟩
  · exact List.mem_cons_of_mem _ (List.mem_cons_self ..)
  · have h := stored_cons le old none (some (.in6 (fun _ => 0) fun _ => 0)) [some (.in4 (fun _ => 0) fun i => if i = 0 then 10 else if i = 3 then 1 else 0)]
    rcases h with ⟨h, _⟩ | ⟨_, a, e, hv⟩
    · cases h
    · rw [e]
      refine if_pos ((zero_iff a).2 ?_)
      simp only [value, Option.some.injEq] at hv
      rw [← hv]
      funext j
      split <;> simp [number]

/-- An address that comes twice, with others in between that have none or are of another kind, is in the array once or twice. -/
example : ∃ r, addresses true UNSPECIFIED [some (.in4 (fun _ => 0) fun _ => 1), some (.in4 (fun _ => 7) fun _ => 1), none, some (.in4 (fun _ => 0) fun _ => 1), some .other] = some r ∧
    (seen r).length = 2 := ⟨_, rfl, by decide⟩

/-! ## Kinds of addresses -/

/-- The type of an IPv4 address: the limited broadcast address, 127.0.0.0/8 but for its first address, the private networks of RFC 1918, 224.0.0.0/4, or public. -/
theorem address_type4_partial (a : V4) :
    (type4 a = "limited-broadcast" ↔ Prefix4 a.toNat 0xffffffff 32) ∧
    (type4 a = "loopback" ↔ Prefix4 a.toNat 0x7f000000 8 ∧ a.toNat ≠ 0x7f000000) ∧
    (type4 a = "private" ↔ Prefix4 a.toNat 0x0a000000 8 ∨ Prefix4 a.toNat 0xac100000 12 ∨ Prefix4 a.toNat 0xc0a80000 16) ∧
    (type4 a = "multicast" ↔ Prefix4 a.toNat 0xe0000000 4) ∧
    (type4 a = "public" ∨ type4 a = "limited-broadcast" ∨ type4 a = "loopback" ∨ type4 a = "private" ∨ type4 a = "multicast") := by
  have ha := a.isLt
  unfold type4
  simp only [isLimitedBroadcast, isLoopback4, isPrivate, isMulticast4, Prefix4, Bool.and_eq_true, Bool.or_eq_true, decide_eq_true_eq, beq_iff_eq, Nat.reduceSub, Nat.reducePow,
    Nat.reduceDiv]
  split
  · refine ⟨⟨fun _ => by omega, fun _ => rfl⟩, ⟨fun h => absurd h (by decide), fun h => by omega⟩, ⟨fun h => absurd h (by decide), fun h => by omega⟩,
      ⟨fun h => absurd h (by decide), fun h => by omega⟩, by decide⟩
  · split
    · refine ⟨⟨fun h => absurd h (by decide), fun h => by omega⟩, ⟨fun _ => by omega, fun _ => rfl⟩, ⟨fun h => absurd h (by decide), fun h => by omega⟩,
        ⟨fun h => absurd h (by decide), fun h => by omega⟩, by decide⟩
    · split
      · refine ⟨⟨fun h => absurd h (by decide), fun h => by omega⟩, ⟨fun h => absurd h (by decide), fun h => by omega⟩, ⟨fun _ => by omega, fun _ => rfl⟩,
          ⟨fun h => absurd h (by decide), fun h => by omega⟩, by decide⟩
      · split
        · refine ⟨⟨fun h => absurd h (by decide), fun h => by omega⟩, ⟨fun h => absurd h (by decide), fun h => by omega⟩, ⟨fun h => absurd h (by decide), fun h => by omega⟩,
            ⟨fun _ => by omega, fun _ => rfl⟩, by decide⟩
        · refine ⟨⟨fun h => absurd h (by decide), fun h => by omega⟩, ⟨fun h => absurd h (by decide), fun h => by omega⟩, ⟨fun h => absurd h (by decide), fun h => by omega⟩,
            ⟨fun h => absurd h (by decide), fun h => by omega⟩, by decide⟩

/-- 127.0.0.0 is in the loopback network but is said to be public. -/
theorem address_loopback4_counterexample : Prefix4 (0x7f000000 : V4).toNat 0x7f000000 8 ∧ type4 0x7f000000 = "public" := ⟨rfl, rfl⟩

/-- The type of an IPv6 address, on either kind of host: that of the prefix that it has. -/
theorem address_type6_partial (le : Bool) (a : V6) :
    (type6 le a = "loopback" ↔ words a = fun j => if j = 7 then 1 else 0) ∧
    (type6 le a = "global-unicast" ↔ Prefix16 (a 0).toNat 0x2000 3) ∧
    (type6 le a = "unique-local" ↔ Prefix16 (a 0).toNat 0xfc00 7) ∧
    (type6 le a = "link-local" ↔ Prefix16 (a 0).toNat 0xfe80 10) ∧
    (type6 le a = "multicast" ↔ Prefix16 (a 0).toNat 0xff00 8) ∧
    (type6 le a = "nat64-wkp" ↔ a 0 = 0x64 ∧ a 1 = 0xff9b ∧ a 2 = 0 ∧ a 3 = 0 ∧ a 4 = 0 ∧ a 5 = 0) ∧
    (type6 le a = "v4-loopback" ↔ words a = mapped 0x7f000001) ∧
    (type6 le a = "v4-mapped" ↔ ∃ x : V4, words a = mapped x.toNat ∧ x ≠ 0x7f000001) ∧
    (type6 le a = "v4-compatible" ↔ (a 0 = 0 ∧ a 1 = 0 ∧ a 2 = 0 ∧ a 3 = 0 ∧ a 4 = 0 ∧ a 5 = 0) ∧ words a ≠ fun j => if j = 7 then 1 else 0) := by
  have n0 := (a 0).isLt
  have z : ∀ (v : BitVec 16) (n : Nat), n < 65536 → (v = BitVec.ofNat 16 n ↔ v.toNat = n) := by
    intro v n hn
    rw [← BitVec.toNat_inj, BitVec.toNat_ofNat, Nat.mod_eq_of_lt hn]
  have z0 : ∀ v : BitVec 16, v = 0 ↔ v.toNat = 0 := fun v => z v 0 (by omega)
  have zf : ∀ v : BitVec 16, v = 0xffff ↔ v.toNat = 0xffff := fun v => z v 0xffff (by omega)
  have z64 : ∀ v : BitVec 16, v = 0x64 ↔ v.toNat = 0x64 := fun v => z v 0x64 (by omega)
  have z9b : ∀ v : BitVec 16, v = 0xff9b ↔ v.toNat = 0xff9b := fun v => z v 0xff9b (by omega)
  have z5e : ∀ v : BitVec 16, v = 0x5efe ↔ v.toNat = 0x5efe := fun v => z v 0x5efe (by omega)
  have z20 : ∀ v : BitVec 16, v = 0x2002 ↔ v.toNat = 0x2002 := fun v => z v 0x2002 (by omega)
  have w1 : (words a = fun j => if j = 7 then 1 else 0) ↔ (a 0).toNat = 0 ∧ (a 1).toNat = 0 ∧ (a 2).toNat = 0 ∧ (a 3).toNat = 0 ∧ (a 4).toNat = 0 ∧ (a 5).toNat = 0 ∧
      (a 6).toNat = 0 ∧ (a 7).toNat = 1 := words_iff a fun j hj => if_neg (by omega)
  have w2 : words a = mapped 0x7f000001 ↔ (a 0).toNat = 0 ∧ (a 1).toNat = 0 ∧ (a 2).toNat = 0 ∧ (a 3).toNat = 0 ∧ (a 4).toNat = 0 ∧ (a 5).toNat = 65535 ∧
      (a 6).toNat = 0x7f00 ∧ (a 7).toNat = 1 := words_iff a (mapped_high _)
  have e1 := (isLoopback_iff le a).trans w1
  have e2 := (isLoopback46_iff le a).trans w2
  have e3 := isV4mapped_iff le a
  have e4 := isV4compatible_iff le a
  have e5 : isNat64 a = true ↔ (a 0 = 0x64 ∧ a 1 = 0xff9b ∧ a 2 = 0 ∧ a 3 = 0 ∧ a 4 = 0 ∧ a 5 = 0) := by
    unfold isNat64
    simp only [Bool.and_eq_true, beq_iff_eq, and_assoc]
  have e6 : isGlobal a = true ↔ 0x2000 ≤ (a 0).toNat ∧ (a 0).toNat ≤ 0x3fff := by
    unfold isGlobal
    simp only [Bool.and_eq_true, decide_eq_true_eq]
  have e7 : isIsatap a = true ↔ (0x2000 ≤ (a 0).toNat ∧ (a 0).toNat ≤ 0x3fff) ∧ a 4 = 0 ∧ a 5 = 0x5efe := by
    unfold isIsatap
    simp only [Bool.and_eq_true, e6, beq_iff_eq, and_assoc]
  have e8 : is6to4 a = true ↔ a 0 = 0x2002 := by
    unfold is6to4
    rw [beq_iff_eq]
  have e9 : isUniqueLocal a = true ↔ 0xfc00 ≤ (a 0).toNat ∧ (a 0).toNat ≤ 0xfdff := by
    unfold isUniqueLocal
    simp only [Bool.and_eq_true, decide_eq_true_eq]
  have e10 : isLinkLocal a = true ↔ 0xfe80 ≤ (a 0).toNat ∧ (a 0).toNat ≤ 0xfebf := by
    unfold isLinkLocal
    simp only [Bool.and_eq_true, decide_eq_true_eq]
  have e11 : isMulticast6 a = true ↔ 0xff00 ≤ (a 0).toNat ∧ (a 0).toNat ≤ 0xffff := by
    unfold isMulticast6
    simp only [Bool.and_eq_true, decide_eq_true_eq]
  have p1 : Prefix16 (a 0).toNat 0x2000 3 ↔ (a 0).toNat / 8192 = 1 := Iff.rfl
  have p2 : Prefix16 (a 0).toNat 0xfc00 7 ↔ (a 0).toNat / 512 = 126 := Iff.rfl
  have p3 : Prefix16 (a 0).toNat 0xfe80 10 ↔ (a 0).toNat / 64 = 1018 := Iff.rfl
  have p4 : Prefix16 (a 0).toNat 0xff00 8 ↔ (a 0).toNat / 256 = 255 := Iff.rfl
  rw [mapped_exists, w2, Ne, w1, p1, p2, p3, p4]
  rw [z0, z0, z0, z0, z0, zf] at e3
  rw [z0, z0, z0, z0, z0, z0] at e4
  rw [z64, z9b, z0, z0, z0, z0] at e5
  rw [z0, z5e] at e7
  rw [z20] at e8
  have q1 : (a 0 = 0x64 ∧ a 1 = 0xff9b ∧ a 2 = 0 ∧ a 3 = 0 ∧ a 4 = 0 ∧ a 5 = 0) ↔
      ((a 0).toNat = 0x64 ∧ (a 1).toNat = 0xff9b ∧ (a 2).toNat = 0 ∧ (a 3).toNat = 0 ∧ (a 4).toNat = 0 ∧ (a 5).toNat = 0) := by
    rw [z64, z9b, z0, z0, z0, z0]
  have q2 : (a 0 = 0 ∧ a 1 = 0 ∧ a 2 = 0 ∧ a 3 = 0 ∧ a 4 = 0 ∧ a 5 = 0) ↔
      ((a 0).toNat = 0 ∧ (a 1).toNat = 0 ∧ (a 2).toNat = 0 ∧ (a 3).toNat = 0 ∧ (a 4).toNat = 0 ∧ (a 5).toNat = 0) := by
    rw [z0, z0, z0, z0, z0, z0]
  rw [q1, q2]
  obtain ⟨t0, t1, t2, t3, t4, t5, t8, t9, t10⟩ := chain _ _ _ _ _ _ _ _ _ _ _ (type6 le a) rfl
  rw [e1] at t0
  rw [e6, e1] at t1
  rw [e9, e1, e6] at t2
  rw [e10, e1, e6, e9] at t3
  rw [e11, e1, e6, e9, e10] at t4
  rw [e5, e1, e6, e9, e10, e11] at t5
  rw [e2, e1, e6, e9, e10, e11, e5, e7, e8] at t8
  rw [e3, e1, e6, e9, e10, e11, e5, e7, e8, e2] at t9
  rw [e4, e1, e6, e9, e10, e11, e5, e7, e8, e2, e3] at t10
  refine ⟨t0.trans ?_, t1.trans ?_, t2.trans ?_, t3.trans ?_, t4.trans ?_, t5.trans ?_, t8.trans ?_, t9.trans ?_, t10.trans ?_⟩
  · exact Iff.rfl
  · exact ⟨fun h => by omega, fun hs => ⟨by omega, fun h => by omega⟩⟩
  · exact ⟨fun h => by omega, fun hs => ⟨by omega, fun h => by omega, fun h => by omega⟩⟩
  · exact ⟨fun h => by omega, fun hs => ⟨by omega, fun h => by omega, fun h => by omega, fun h => by omega⟩⟩
  · exact ⟨fun h => by omega, fun hs => ⟨by omega, fun h => by omega, fun h => by omega, fun h => by omega, fun h => by omega⟩⟩
  · exact ⟨fun h => by omega, fun hs => ⟨by omega, fun h => by omega, fun h => by omega, fun h => by omega, fun h => by omega, fun h => by omega⟩⟩
  · exact ⟨fun h => by omega, fun hs => ⟨by omega, fun h => by omega, fun h => by omega, fun h => by omega, fun h => by omega, fun h => by omega, fun h => by omega, fun h => by omega, fun h => by omega⟩⟩
  · exact ⟨fun h => ⟨h.1, fun hn => h.2.2.2.2.2.2.2.2.2 ⟨h.1.1, h.1.2.1, h.1.2.2.1, h.1.2.2.2.1, h.1.2.2.2.2.1, h.1.2.2.2.2.2, hn⟩⟩,
      fun hs => ⟨hs.1, fun h => by omega, fun h => by omega, fun h => by omega, fun h => by omega, fun h => by omega, fun h => by omega, fun h => by omega, fun h => by omega, fun h => hs.2 h.2.2.2.2.2.2⟩⟩
  · exact ⟨fun h => ⟨h.1, h.2.1⟩, fun hs => ⟨hs.1, hs.2, fun h => by omega, fun h => by omega, fun h => by omega, fun h => by omega, fun h => by omega, fun h => by omega, fun h => by omega, fun h => by omega, fun h => by omega⟩⟩

/-- "6to4" and "atap" are types that no address has, although there are addresses of these kinds. -/
theorem address_6to4_counterexample : (∀ le a, type6 le a ≠ "6to4" ∧ type6 le a ≠ "atap") ∧ (∃ a, is6to4 a = true) ∧ ∃ a, isIsatap a = true := by
  refine ⟨fun le a => ?_, ⟨fun _ => 0x2002, rfl⟩, ⟨fun j => if j = 0 then 0x2001 else if j = 5 then 0x5efe else 0, rfl⟩⟩
  unfold type6
  by_cases hg : isGlobal a = true
  · rw [if_pos hg]
    split <;> decide
  · have h1 : isIsatap a = false := by
      unfold isIsatap
      rw [Bool.not_eq_true] at hg
      rw [hg]
      rfl
    have h2 : is6to4 a = false := by
      cases h : is6to4 a
      · rfl
      · exfalso
        apply hg
        have h := eq_of_beq h
        unfold isGlobal
        rw [h]
        rfl
    rw [h1, h2]
    simp only [Bool.false_eq_true, if_false]
    split
    · decide
    all_goals try split
    all_goals try decide
    all_goals try split
    all_goals try decide
    all_goals try split
    all_goals try decide
    all_goals try split
    all_goals try decide
    all_goals try split
    all_goals try decide
    all_goals try split
    all_goals try decide
    all_goals try split
    all_goals try decide
    all_goals split
    all_goals decide

/-- Addresses of some types. -/
example : type4 0xac1f0001 = "private" ∧ type4 0xac200001 = "public" ∧ type4 0x7f000001 = "loopback" ∧ type6 true LOOPBACK = "loopback" ∧
    type6 false (fun _ => 0xfe80) = "link-local" ∧ type6 true (ipv4toipv6 true UNSPECIFIED 0x0a000001) = "v4-mapped" := by
  decide

end Diminuto.Address
