import Verif.InternettoolLemmas

/-!
# Properties: how the tool for the Internet decides what to do
-/

namespace Diminuto.Internettool

/-- A run comes to parameters. -/
def Comes (w : World) (opts : List Opt) (memory : Bool) (p : Parameters) : Prop := main w opts memory = .prints p ∨ main w opts memory = .works p

/-- The parameters are those asked for: the family, the protocol, the addresses of both ends, the interface, and the size of the block.  If the tool is told to exit it prints them and does nothing with them; or else it does. -/
theorem internettool_asked (w : World) (opts : List Opt) (memory : Bool) (p : Parameters) (h : Comes w opts memory p) :
    Asked w opts p ∧ (Opt.exit ∈ opts ↔ main w opts memory = .prints p) := by
  obtain ⟨c, p1, p2, n, ho, _, hn, hf, hc, hb, hp, hx⟩ := main_inv w opts memory p h
  have hs := options_set _ _ _ ho
  obtain ⟨a1, a2, a3, a4, a5, a6, a7, a8, a9⟩ := near_ok w c p1 hn
  obtain ⟨b1, b2, b3, b4, b5, b6, b7, b8, b9⟩ := far_ok w c p1 p2 a8 hf
  obtain ⟨d1, d2, d3, d4, d5, d6, d7⟩ := details_ok w c p2
  have sn : c.nearendpoint = latest saysNear opts := by rw [hs.near]; exact Option.or_none
  have sf : c.farendpoint = latest saysFar opts := by rw [hs.far]; exact Option.or_none
  have sa : c.address = latest saysAddress opts := by rw [hs.address]; exact Option.or_none
  have ss : c.server = latest saysServer opts := by rw [hs.server]; exact Option.or_none
  have si : c.interface = latest saysInterface opts := by rw [hs.interface]; exact Option.or_none
  have sb : c.blocksize = latest saysBlock opts := by rw [hs.block]; exact Option.or_none
  have s2 : c.layer2 = (latest saysFamily opts).getD .v4 := hs.layer2
  have s3 : c.layer3 = (latest saysProtocol opts).getD .tcp := hs.layer3
  have family : p2.layer2 = family w opts := by
    rw [b1, a1, s2, sn, sf]
    unfold Internettool.family
    cases (found w (latest saysFar opts)).bind familyOf <;> cases (found w (latest saysNear opts)).bind familyOf <;> rfl
  have protocol : p2.layer3 = protocol w opts := by
    rw [b2, a2, s3, sn, sf]
    unfold Internettool.protocol
    cases (found w (latest saysFar opts)).bind protocolOf <;> cases (found w (latest saysNear opts)).bind protocolOf <;> rfl
  have nearA : p.nearAddress = (details w c p2).nearAddress := by rw [hp]; rfl
  have farA : p.farAddress = (details w c p2).farAddress := by rw [hp]; rfl
  refine ⟨⟨?_, ?_, ?_, ?_, ?_, ?_, ?_, ?_, ?_⟩, ?_⟩
  · rw [hp]; exact d1.trans family
  · rw [hp]; exact d2.trans protocol
  · rw [nearA, d4, sa, family]
    cases latest saysAddress opts with
    | some t => rfl
    | none =>
      have : p2.nearAddress = match p2.layer2 with | .v4 => .inl p1.address4 | .v6 => .inr p1.address6 := by unfold Parameters.nearAddress; rw [b3, b4]; cases p2.layer2 <;> rfl
      show p2.nearAddress = _
      rw [this, family, a3, a4, sn]
      cases found w (latest saysNear opts) <;> cases Internettool.family w opts <;> rfl
  · intro t ht
    rw [farA, d5, ss, ht, family]
  · intro hno e he hw
    rw [farA, d5, ss, hno]
    obtain ⟨h4, h6⟩ := b7 e (by rw [sf]; exact he) hw
    show p2.farAddress = _
    unfold Parameters.farAddress
    rw [family, h4, h6]
    cases Internettool.family w opts <;> rfl
  · intro hno hw
    rw [farA, d5, ss, hno]
    obtain ⟨h4, h6⟩ := b8 (by rw [sf]; exact hw)
    show p2.farAddress = _
    unfold Parameters.farAddress
    rw [family, h4, h6, a6, a7]
    cases Internettool.family w opts <;> rfl
  · rw [hp]
    show (details w c p2).interface = _
    rw [d3, b6, a9, si]
  · intro t ht
    rw [← si] at ht
    unfold check at hc
    rw [ht] at hc
    cases hi : w.interfaces with
    | none => rw [hi] at hc; exact (nomatch hc)
    | some names => rw [hi] at hc; simp only [Bool.and_eq_true, decide_eq_true_eq] at hc; exact ⟨names, rfl, hc.1⟩
  · have := block_sized c n hb
    rw [sb] at this
    rw [hp]
    exact this
  · rw [← hx, hs.exit]
    simp [Config.start]

/-- A world in which the names are those of the tests. -/
def town : World where
  endpoint := fun t => some (0, if t = [1#8] then { Endpoint.blank with ipv4 := 5, ipv6 := 6, tcp := 7, udp := 8 } else if t = [2#8] then { Endpoint.blank with udp := 9 } else { Endpoint.blank with ipv6 := 4 })
  address4 := fun t => BitVec.ofNat 32 t.length
  address6 := fun t => BitVec.ofNat 128 t.length
  tcp := fun t => if t = [1#8] then 21 else 0
  udp := fun t => if t = [1#8] then 22 else if t = [2#8] then 23 else 0
  interfaces := some [[3#8], [4#8]]
  bound := fun _ _ => true

example : Comes town [.four, .udp, .nearendpoint [1#8], .farendpoint [3#8], .interface [4#8], .blocksize [49#8, 54#8]] true
    { layer2 := .v6, layer3 := .udp, address4 := 5, address6 := 6, port := 8, server4 := 0, server6 := 4, rendezvous := 0, interface := some [4#8], blocksize := 16 } := Or.inr (by decide +kernel)

/-- The port of the near end is the one asked for, for the protocol; but if it is to be that of an endpoint with both, and the far endpoint is only of one protocol, it is that of the protocol before. -/
theorem internettool_near_port_partial (w : World) (opts : List Opt) (memory : Bool) (p : Parameters) (h : Comes w opts memory p)
    (hf : latest saysPort opts = none → ∀ e, found w (latest saysFar opts) = some e → protocolOf e = none) : NearPort w opts p := by
  obtain ⟨c, p1, p2, n, ho, _, hn, hfar, hc, hb, hp, hx⟩ := main_inv w opts memory p h
  have hq := (internettool_asked w opts memory p h).1.protocol
  have hs := options_set _ _ _ ho
  obtain ⟨a1, a2, a3, a4, a5, a6, a7, a8, a9⟩ := near_ok w c p1 hn
  obtain ⟨b1, b2, b3, b4, b5, b6, b7, b8, b9⟩ := far_ok w c p1 p2 a8 hfar
  obtain ⟨d1, d2, d3, d4, d5, d6, d7⟩ := details_ok w c p2
  have sn : c.nearendpoint = latest saysNear opts := by rw [hs.near]; exact Option.or_none
  have sf : c.farendpoint = latest saysFar opts := by rw [hs.far]; exact Option.or_none
  have sp : c.port = latest saysPort opts := by rw [hs.port]; exact Option.or_none
  have h3 : p2.layer3 = protocol w opts := by rw [← hq, hp]; exact d2.symm
  unfold NearPort
  have : p.port = (details w c p2).port := by rw [hp]
  rw [this, d6, sp]
  cases hl : latest saysPort opts with
  | none =>
    have h13 : p1.layer3 = protocol w opts := by
      rw [← h3, b2, sf]
      cases hx : found w (latest saysFar opts) with
      | none => rfl
      | some e => show _ = (protocolOf e).getD _; rw [hf hl e hx]; rfl
    show p2.port = _
    rw [b5, a5, sn, h13]
    cases found w (latest saysNear opts) <;> rfl
  | some t =>
    rw [← h3]
    cases hl3 : p2.layer3 with
    | tcp => rfl
    | udp => rfl
    | ping =>
      show p2.port = 0
      have h13 : p1.layer3 = .ping := by
        rw [b2] at hl3
        cases hx : (found w c.farendpoint).bind protocolOf with
        | none => rw [hx] at hl3; exact hl3
        | some l =>
          rw [hx] at hl3
          exfalso
          obtain ⟨e, _, he⟩ := Option.bind_eq_some_iff.mp hx
          unfold protocolOf at he
          split at he <;> cases he <;> exact (nomatch hl3)
      rw [b5, a5, h13]
      cases found w c.nearendpoint <;> rfl

example : NearPort town [.udp, .nearendpoint [1#8], .farendpoint [3#8]] { layer2 := .v6, layer3 := .udp, address4 := 5, address6 := 6, port := 8, server4 := 0, server6 := 4, rendezvous := 0, interface := none, blocksize := 512 } :=
  internettool_near_port_partial _ _ true _ (Or.inr (by decide +kernel)) (fun _ e he => by rw [show found town (latest saysFar [.udp, .nearendpoint [1#8], .farendpoint [3#8]]) = some { Endpoint.blank with ipv6 := 4 } from by decide +kernel] at he; cases he; decide +kernel)

/-- The near end is an endpoint with different ports for TCP and UDP, the far one only has a port for UDP: the tool uses UDP with the port for TCP of the near endpoint. -/
theorem internettool_near_port_counterexample : ¬ ∀ w opts memory p, Comes w opts memory p → NearPort w opts p := fun h =>
  absurd (h town [.nearendpoint [1#8], .farendpoint [2#8]] true { layer2 := .v4, layer3 := .udp, address4 := 5, address6 := 6, port := 7, server4 := 0x7f000001, server6 := 1, rendezvous := 9, interface := none, blocksize := 512 } (Or.inr (by decide +kernel)))
    (by unfold NearPort; decide +kernel)

/-- The port of the far end is the one asked for, for the protocol, if the port that the service has for TCP is that; or if there is only an endpoint. -/
theorem internettool_far_port_partial (w : World) (opts : List Opt) (memory : Bool) (p : Parameters) (h : Comes w opts memory p)
    (ht : ∀ t, latest saysRendezvous opts = some t → w.tcp t = serviceOf w t (protocol w opts)) : FarPort w opts p := by
  obtain ⟨c, p1, p2, n, ho, _, hn, hfar, hc, hb, hp, hx⟩ := main_inv w opts memory p h
  have hq := (internettool_asked w opts memory p h).1.protocol
  have hs := options_set _ _ _ ho
  obtain ⟨a1, a2, a3, a4, a5, a6, a7, a8, a9⟩ := near_ok w c p1 hn
  obtain ⟨b1, b2, b3, b4, b5, b6, b7, b8, b9⟩ := far_ok w c p1 p2 a8 hfar
  obtain ⟨d1, d2, d3, d4, d5, d6, d7⟩ := details_ok w c p2
  have sf : c.farendpoint = latest saysFar opts := by rw [hs.far]; exact Option.or_none
  have sp : c.rendezvous = latest saysRendezvous opts := by rw [hs.rendezvous]; exact Option.or_none
  have h3 : p2.layer3 = protocol w opts := by rw [← hq, hp]; exact d2.symm
  unfold FarPort
  have : p.rendezvous = (details w c p2).rendezvous := by rw [hp]
  rw [this, d7, sp]
  cases hl : latest saysRendezvous opts with
  | some t => exact ht t hl
  | none =>
    show p2.rendezvous = _
    rw [b9, sf, h3]
    cases found w (latest saysFar opts) <;> rfl

example : FarPort town [.tcp, .rendezvous [1#8]] { layer2 := .v4, layer3 := .tcp, address4 := 0, address6 := 0, port := 0, server4 := 0x7f000001, server6 := 1, rendezvous := 21, interface := none, blocksize := 512 } :=
  internettool_far_port_partial _ _ true _ (Or.inr (by decide +kernel)) (fun t ht => by
    rw [show latest saysRendezvous [.tcp, .rendezvous [1#8]] = some [1#8] from by decide +kernel] at ht
    cases ht
    decide +kernel)

/-- For UDP, the port of the far end is that which the service has for TCP: another one, or none, if the service is only one of UDP; and then the tool that was to consume provides. -/
theorem internettool_far_port_counterexample :
    (¬ ∀ w opts memory p, Comes w opts memory p → FarPort w opts p) ∧
    ∃ w t p, w.udp t ≠ 0 ∧ main w [.udp, .rendezvous t] true = .works p ∧ opening p = .peer4 0 0 none none :=
  ⟨fun h => absurd (h town [.udp, .rendezvous [1#8]] true { layer2 := .v4, layer3 := .udp, address4 := 0, address6 := 0, port := 0, server4 := 0x7f000001, server6 := 1, rendezvous := 21, interface := none, blocksize := 512 } (Or.inr (by decide +kernel)))
    (by unfold FarPort; decide +kernel),
   town, [2#8], { layer2 := .v4, layer3 := .udp, address4 := 0, address6 := 0, port := 0, server4 := 0x7f000001, server6 := 1, rendezvous := 0, interface := none, blocksize := 512 }, by decide, by decide +kernel, by decide⟩

/-- What is opened: a socket of the family and the protocol, at the address and port of the near end; the tool provides if and only if the far end has no port, and else it consumes from the address and port of the far end.  The interface is the one asked for. -/
theorem internettool_opens (p : Parameters) :
    match p.layer3, p.layer2, p.rendezvous.toNat with
    | .tcp, .v4, 0 => opening p = .provide4 p.address4 p.port p.interface
    | .tcp, .v6, 0 => opening p = .provide6 p.address6 p.port p.interface
    | .tcp, .v4, _ + 1 => opening p = .consume4 p.server4 p.rendezvous p.address4 p.port p.interface
    | .tcp, .v6, _ + 1 => opening p = .consume6 p.server6 p.rendezvous p.address6 p.port p.interface
    | .udp, .v4, 0 => opening p = .peer4 p.address4 p.port p.interface none
    | .udp, .v6, 0 => opening p = .peer6 p.address6 p.port p.interface none
    | .udp, .v4, _ + 1 => opening p = .peer4 p.address4 p.port p.interface (some (p.server4, p.rendezvous))
    | .udp, .v6, _ + 1 => opening p = .peer6 p.address6 p.port p.interface (some (p.server6, p.rendezvous))
    | .ping, .v4, _ => p.interface = none → opening p = .ping4 p.address4 p.port p.server4
    | .ping, .v6, _ => p.interface = none → opening p = .ping6 p.address6 p.port p.server6 := by
  have hz : p.rendezvous.toNat = 0 ↔ p.rendezvous = 0 := ⟨fun h => BitVec.eq_of_toNat_eq h, fun h => by rw [h]; rfl⟩
  unfold opening
  cases hr : p.rendezvous.toNat with
  | zero =>
    have h0 := hz.mp hr
    cases p.layer3 <;> cases p.layer2 <;> simp [h0] <;> intro h <;> simp [h]
  | succ n =>
    have h0 : ¬ p.rendezvous = 0 := fun h => by rw [hz.mpr h] at hr; exact (nomatch hr)
    cases p.layer3 <;> cases p.layer2 <;> simp only [] <;> first | rw [if_neg h0] | exact fun h => if_pos h

/-- A ping through an interface that has been asked for, whatever it is, reads memory that has been freed. -/
theorem internettool_ping_counterexample (w : World) (opts : List Opt) (memory : Bool) (p : Parameters) (t : List Byte) (h : Comes w opts memory p) (hp : protocol w opts = .ping) (hi : latest saysInterface opts = some t) : opening p = .undefined := by
  have ha := (internettool_asked w opts memory p h).1
  have h3 : p.layer3 = .ping := ha.protocol.trans hp
  have hn : ¬ p.interface = none := by rw [ha.interface, hi]; exact fun h => (nomatch h)
  unfold opening
  rw [h3]
  cases p.layer2 <;> exact if_neg hn

example : ∃ p, Comes town [.ping, .interface [3#8]] true p ∧ protocol town [.ping, .interface [3#8]] = .ping ∧ latest saysInterface [.ping, .interface [3#8]] = some [3#8] :=
  ⟨{ layer2 := .v4, layer3 := .ping, address4 := 0, address6 := 0, port := 0, server4 := 0x7f000001, server6 := 1, rendezvous := 0, interface := some [3#8], blocksize := 512 }, Or.inr (by decide +kernel), by decide +kernel, by decide +kernel⟩

/-- Apart from that what is opened is defined. -/
theorem internettool_opens_defined (p : Parameters) : opening p = .undefined ↔ p.layer3 = .ping ∧ p.interface ≠ none := by
  unfold opening
  cases hl : p.layer3 <;> cases p.layer2 <;> cases p.interface <;> simp <;> (try split) <;> simp

/-- The menu is printed if and only if that has been asked for or an option is not known; and otherwise the interfaces are listed if and only if that has been asked for: whatever else there is. -/
theorem internettool_menu (w : World) (opts : List Opt) (memory : Bool) :
    (Opt.menu ∈ opts → main w opts memory = .menu) ∧ (Opt.menu ∉ opts → Opt.interfaces ∈ opts → main w opts memory = .lists) ∧
    (Opt.menu ∉ opts → main w opts memory ≠ .menu) ∧ (Opt.interfaces ∉ opts → main w opts memory ≠ .lists) := by
  have none_ : Opt.menu ∈ opts → options Config.start opts = none := (options_menu opts Config.start).mpr
  have some_ : Opt.menu ∉ opts → ∃ c, options Config.start opts = some c := fun h => by
    cases ho : options Config.start opts with
    | none => exact absurd ((options_menu opts Config.start).mp ho) h
    | some c => exact ⟨c, rfl⟩
  have near_not : ∀ c d, near w c (Parameters.start c) = .error d → d ≠ .menu ∧ d ≠ .lists := by
    intro c d h
    unfold near at h
    cases h1 : c.nearendpoint with
    | none => rw [h1] at h; exact (nomatch h)
    | some t =>
      rw [h1] at h
      simp only [] at h
      cases h2 : w.endpoint t with
      | none => rw [h2] at h; cases h; exact ⟨fun h => (nomatch h), fun h => (nomatch h)⟩
      | some r =>
        rw [h2] at h
        simp only [] at h
        by_cases h3 : r.1 < 0
        · rw [if_pos h3] at h; cases h; exact ⟨fun h => (nomatch h), fun h => (nomatch h)⟩
        · rw [if_neg h3] at h; exact (nomatch h)
  have far_not : ∀ c p d, far w c p = .error d → d ≠ .menu ∧ d ≠ .lists := by
    intro c p d h
    unfold far at h
    cases h1 : c.farendpoint with
    | none => rw [h1] at h; exact (nomatch h)
    | some t =>
      rw [h1] at h
      simp only [] at h
      cases h2 : w.endpoint t with
      | none => rw [h2] at h; cases h; exact ⟨fun h => (nomatch h), fun h => (nomatch h)⟩
      | some r =>
        rw [h2] at h
        simp only [] at h
        by_cases h3 : r.1 < 0
        · rw [if_pos h3] at h; cases h; exact ⟨fun h => (nomatch h), fun h => (nomatch h)⟩
        · rw [if_neg h3] at h; exact (nomatch h)
  have rest : ∀ c, options Config.start opts = some c → c.interfaces = false → main w opts memory ≠ .menu ∧ main w opts memory ≠ .lists := by
    intro c ho hi
    unfold main
    rw [ho]
    simp only []
    rw [hi, if_neg (by simp)]
    cases hn : near w c (Parameters.start c) with
    | error d => exact near_not c d hn
    | ok p =>
      simp only []
      cases hf : far w c p with
      | error d => exact far_not c p d hf
      | ok q =>
        simp only []
        split
        · exact ⟨fun h => (nomatch h), fun h => (nomatch h)⟩
        · cases block c with
          | none => exact ⟨fun h => (nomatch h), fun h => (nomatch h)⟩
          | some n =>
            simp only []
            split
            · exact ⟨fun h => (nomatch h), fun h => (nomatch h)⟩
            · split <;> exact ⟨fun h => (nomatch h), fun h => (nomatch h)⟩
  have listing : ∀ c, options Config.start opts = some c → (c.interfaces = true ↔ Opt.interfaces ∈ opts) := fun c ho => by
    rw [(options_set _ _ _ ho).interfaces]
    simp [Config.start]
  refine ⟨fun h => ?_, fun h hi => ?_, fun h => ?_, fun hi => ?_⟩
  · unfold main; rw [none_ h]
  · obtain ⟨c, ho⟩ := some_ h
    unfold main
    rw [ho]
    exact if_pos ((listing c ho).mpr hi)
  · obtain ⟨c, ho⟩ := some_ h
    cases hc : c.interfaces with
    | false => exact (rest c ho hc).1
    | true =>
      unfold main
      rw [ho]
      simp only []
      rw [hc, if_pos rfl]
      exact fun h => (nomatch h)
  · by_cases h : Opt.menu ∈ opts
    · unfold main; rw [none_ h]; exact fun h => (nomatch h)
    · obtain ⟨c, ho⟩ := some_ h
      cases hc : c.interfaces with
      | false => exact (rest c ho hc).2
      | true => exact absurd ((listing c ho).mp hc) hi

example : main town [.six, .interfaces, .farendpoint []] true = .lists ∧ main town [.interfaces, .menu] true = .menu := by decide +kernel

/-- An endpoint that cannot be found, an interface that there is not, a size that is not a number: the tool panics, and nothing is opened. -/
theorem internettool_refuses (w : World) (opts : List Opt) (memory : Bool) (hm : Opt.menu ∉ opts) (hi : Opt.interfaces ∉ opts) (hd : ∀ t, latest saysNear opts = some t ∨ latest saysFar opts = some t → w.endpoint t ≠ none)
    (h : (∃ t r, (latest saysNear opts = some t ∨ latest saysFar opts = some t) ∧ w.endpoint t = some r ∧ r.1 < 0) ∨
      (∃ t, latest saysInterface opts = some t ∧ ∀ names, w.interfaces = some names → t ∉ names) ∨
      (∃ t, latest saysBlock opts = some t ∧ ∀ v, ¬ Sized t v)) : main w opts memory = .panics := by
  have hpan : ∀ p, ¬ Comes w opts memory p := by
    intro p hc
    have ha := (internettool_asked w opts memory p hc).1
    rcases h with ⟨t, r, ht, hr, hrc⟩ | ⟨t, ht, hn⟩ | ⟨t, ht, hn⟩
    · obtain ⟨c, p1, p2, n, ho, _, hnear, hfar, _⟩ := main_inv w opts memory p hc
      have hs := options_set _ _ _ ho
      have sn : c.nearendpoint = latest saysNear opts := by rw [hs.near]; exact Option.or_none
      have sf : c.farendpoint = latest saysFar opts := by rw [hs.far]; exact Option.or_none
      rcases ht with ht | ht
      · unfold near at hnear
        rw [sn, ht] at hnear
        simp only [] at hnear
        rw [hr] at hnear
        simp only [] at hnear
        rw [if_pos hrc] at hnear
        exact (nomatch hnear)
      · unfold far at hfar
        rw [sf, ht] at hfar
        simp only [] at hfar
        rw [hr] at hfar
        simp only [] at hfar
        rw [if_pos hrc] at hfar
        exact (nomatch hfar)
    · obtain ⟨names, h1, h2⟩ := ha.known t ht
      exact hn names h1 h2
    · have := ha.block
      rw [ht] at this
      exact hn _ this
  cases hr : main w opts memory with
  | menu => exact absurd hr ((internettool_menu w opts memory).2.2.1 hm)
  | lists => exact absurd hr ((internettool_menu w opts memory).2.2.2 hi)
  | panics => rfl
  | prints p => exact absurd (Or.inl hr) (hpan p)
  | works p => exact absurd (Or.inr hr) (hpan p)
  | undefined =>
    exfalso
    unfold main at hr
    cases ho : options Config.start opts with
    | none => rw [ho] at hr; exact (nomatch hr)
    | some c =>
      have hs := options_set _ _ _ ho
      have sn : c.nearendpoint = latest saysNear opts := by rw [hs.near]; exact Option.or_none
      have sf : c.farendpoint = latest saysFar opts := by rw [hs.far]; exact Option.or_none
      rw [ho] at hr
      simp only [] at hr
      by_cases hc : c.interfaces = true
      · rw [if_pos hc] at hr; exact (nomatch hr)
      · rw [if_neg hc] at hr
        cases hn : near w c (Parameters.start c) with
        | error d =>
          rw [hn] at hr
          simp only [] at hr
          subst hr
          unfold near at hn
          cases h1 : c.nearendpoint with
          | none => rw [h1] at hn; exact (nomatch hn)
          | some t =>
            rw [h1] at hn
            simp only [] at hn
            cases h2 : w.endpoint t with
            | none => exact hd t (Or.inl (sn ▸ h1)) h2
            | some r =>
              rw [h2] at hn
              simp only [] at hn
              by_cases h3 : r.1 < 0
              · rw [if_pos h3] at hn; exact (nomatch hn)
              · rw [if_neg h3] at hn; exact (nomatch hn)
        | ok p =>
          rw [hn] at hr
          simp only [] at hr
          cases hf : far w c p with
          | error d =>
            rw [hf] at hr
            simp only [] at hr
            subst hr
            unfold far at hf
            cases h1 : c.farendpoint with
            | none => rw [h1] at hf; exact (nomatch hf)
            | some t =>
              rw [h1] at hf
              simp only [] at hf
              cases h2 : w.endpoint t with
              | none => exact hd t (Or.inr (sf ▸ h1)) h2
              | some r =>
                rw [h2] at hf
                simp only [] at hf
                by_cases h3 : r.1 < 0
                · rw [if_pos h3] at hf; exact (nomatch hf)
                · rw [if_neg h3] at hf; exact (nomatch hf)
          | ok q =>
            rw [hf] at hr
            simp only [] at hr
            split at hr
            · exact (nomatch hr)
            · cases hb : block c with
              | none => rw [hb] at hr; exact (nomatch hr)
              | some n =>
                rw [hb] at hr
                simp only [] at hr
                split at hr
                · exact (nomatch hr)
                · split at hr <;> exact (nomatch hr)

example : main town [.udp, .interface [9#8]] true = .panics ∧ main town [.blocksize [120#8]] true = .panics := by decide +kernel

end Diminuto.Internettool
