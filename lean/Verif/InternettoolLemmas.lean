import Verif.InternettoolSpec
import Verif.LineLemmas

/-!
# Lemmas about how the tool for the Internet decides what to do
-/

namespace Diminuto.Internettool

theorem latest_cons {α : Type} (says : Opt → Option α) (o : Opt) (r : List Opt) : latest says (o :: r) = (latest says r).or (says o) := by
  unfold latest
  cases h : says o with
  | none => rw [List.filterMap_cons_none h, Option.or_none]
  | some a =>
    rw [List.filterMap_cons_some h, List.getLast?_cons]
    cases (List.filterMap says r).getLast? <;> rfl

/-- What the variables come to. -/
structure Set (c : Config) (opts : List Opt) (d : Config) : Prop where
  interface : d.interface = (latest saysInterface opts).or c.interface
  near : d.nearendpoint = (latest saysNear opts).or c.nearendpoint
  address : d.address = (latest saysAddress opts).or c.address
  port : d.port = (latest saysPort opts).or c.port
  far : d.farendpoint = (latest saysFar opts).or c.farendpoint
  server : d.server = (latest saysServer opts).or c.server
  rendezvous : d.rendezvous = (latest saysRendezvous opts).or c.rendezvous
  block : d.blocksize = (latest saysBlock opts).or c.blocksize
  layer2 : d.layer2 = (latest saysFamily opts).getD c.layer2
  layer3 : d.layer3 = (latest saysProtocol opts).getD c.layer3
  interfaces : d.interfaces = (c.interfaces || decide (Opt.interfaces ∈ opts))
  exit : d.exit = (c.exit || decide (Opt.exit ∈ opts))

theorem or_of_none {α : Type} (a b : Option α) : (a.or none).or b = a.or b := by rw [Option.or_none]

theorem or_of_some {α : Type} (a : Option α) (x : α) (b : Option α) : a.or (some x) = (a.or (some x)).or b := by cases a <;> rfl

theorem getD_or_none {α : Type} (a : Option α) (x : α) : (a.or none).getD x = a.getD x := by rw [Option.or_none]

theorem getD_or_some {α : Type} (a : Option α) (x y : α) : (a.or (some x)).getD y = a.getD x := by cases a <;> rfl

theorem options_set (opts : List Opt) : ∀ c d, options c opts = some d → Set c opts d := by
  induction opts with
  | nil =>
    intro c d h
    cases h
    exact ⟨rfl, rfl, rfl, rfl, rfl, rfl, rfl, rfl, rfl, rfl, by simp, by simp⟩
  | cons o r ih =>
    intro c d h
    unfold options at h
    cases o with
    | menu => exact (nomatch h)
    | _ =>
      have hs := ih _ _ h
      refine ⟨?_, ?_, ?_, ?_, ?_, ?_, ?_, ?_, ?_, ?_, ?_, ?_⟩
      · rw [latest_cons, hs.interface]; first | rw [show saysInterface _ = none from rfl, or_of_none] | exact (or_of_some _ _ _)
      · rw [latest_cons, hs.near]; first | rw [show saysNear _ = none from rfl, or_of_none] | exact (or_of_some _ _ _)
      · rw [latest_cons, hs.address]; first | rw [show saysAddress _ = none from rfl, or_of_none] | exact (or_of_some _ _ _)
      · rw [latest_cons, hs.port]; first | rw [show saysPort _ = none from rfl, or_of_none] | exact (or_of_some _ _ _)
      · rw [latest_cons, hs.far]; first | rw [show saysFar _ = none from rfl, or_of_none] | exact (or_of_some _ _ _)
      · rw [latest_cons, hs.server]; first | rw [show saysServer _ = none from rfl, or_of_none] | exact (or_of_some _ _ _)
      · rw [latest_cons, hs.rendezvous]; first | rw [show saysRendezvous _ = none from rfl, or_of_none] | exact (or_of_some _ _ _)
      · rw [latest_cons, hs.block]; first | rw [show saysBlock _ = none from rfl, or_of_none] | exact (or_of_some _ _ _)
      · rw [latest_cons, hs.layer2]; first | rw [show saysFamily _ = none from rfl, getD_or_none] | exact (getD_or_some _ _ _).symm
      · rw [latest_cons, hs.layer3]; first | rw [show saysProtocol _ = none from rfl, getD_or_none] | exact (getD_or_some _ _ _).symm
      · rw [hs.interfaces]; simp
      · rw [hs.exit]; simp

theorem options_menu (opts : List Opt) : ∀ c, options c opts = none ↔ Opt.menu ∈ opts := by
  induction opts with
  | nil => intro c; simp [options]
  | cons o r ih =>
    intro c
    unfold options
    cases o <;> simp [option, ih]

/-! ## The endpoints -/

theorem pick_protocol (e : Endpoint.Result) (l : Layer3) (port : BitVec 16) : (pick e l port).1 = (protocolOf e).getD l := by
  unfold pick protocolOf
  by_cases ht : e.tcp = 0#16 <;> by_cases hu : e.udp = 0#16 <;> cases l <;> simp [ht, hu]

theorem pick_port (e : Endpoint.Result) (l : Layer3) : (pick e l 0).2 = portOf e ((protocolOf e).getD l) := by
  unfold pick protocolOf
  by_cases ht : e.tcp = 0#16 <;> by_cases hu : e.udp = 0#16 <;> cases l <;> simp [ht, hu, portOf]

theorem place_family (e : Endpoint.Result) (l : Layer2) (a4 : BitVec 32) (a6 : BitVec 128) : (place e l a4 a6).1 = (familyOf e).getD l := by
  unfold place familyOf
  by_cases ht : e.ipv4 = 0#32 <;> by_cases hu : e.ipv6 = 0#128 <;> simp [ht, hu]

theorem place_zero (e : Endpoint.Result) (l : Layer2) : (place e l 0 0).2 = (e.ipv4, e.ipv6) := by
  unfold place
  by_cases ht : e.ipv4 = 0#32 <;> by_cases hu : e.ipv6 = 0#128 <;> simp [ht, hu]

theorem place_somewhere (e : Endpoint.Result) (l : Layer2) (a4 : BitVec 32) (a6 : BitVec 128) (h : Somewhere e) : (place e l a4 a6).2 = (e.ipv4, e.ipv6) := by
  unfold place
  unfold Somewhere at h
  by_cases ht : e.ipv4 = 0#32 <;> by_cases hu : e.ipv6 = 0#128 <;> simp [ht, hu] at h ⊢

theorem place_nowhere (e : Endpoint.Result) (l : Layer2) (a4 : BitVec 32) (a6 : BitVec 128) (h : ¬ Somewhere e) : (place e l a4 a6).2 = (a4, a6) := by
  unfold place
  unfold Somewhere at h
  by_cases ht : e.ipv4 = 0#32 <;> by_cases hu : e.ipv6 = 0#128 <;> simp [ht, hu] at h ⊢

/-- What the near endpoint makes of the parameters. -/
theorem near_ok (w : World) (c : Config) (p : Parameters) (h : near w c (Parameters.start c) = .ok p) :
    p.layer2 = ((found w c.nearendpoint).bind familyOf).getD c.layer2 ∧ p.layer3 = ((found w c.nearendpoint).bind protocolOf).getD c.layer3 ∧
    p.address4 = ((found w c.nearendpoint).map (·.ipv4)).getD 0 ∧ p.address6 = ((found w c.nearendpoint).map (·.ipv6)).getD 0 ∧
    p.port = ((found w c.nearendpoint).map (fun e => portOf e p.layer3)).getD 0 ∧ p.server4 = 0x7f000001 ∧ p.server6 = 1 ∧ p.rendezvous = 0 ∧ p.interface = c.interface := by
  unfold near at h
  cases hn : c.nearendpoint with
  | none => rw [hn] at h; cases h; exact ⟨rfl, rfl, rfl, rfl, rfl, rfl, rfl, rfl, rfl⟩
  | some t =>
    rw [hn] at h
    simp only [] at h
    cases he : w.endpoint t with
    | none => rw [he] at h; exact (nomatch h)
    | some r =>
      obtain ⟨rc, e⟩ := r
      rw [he] at h
      simp only [] at h
      by_cases hrc : rc < 0
      · rw [if_pos hrc] at h; exact (nomatch h)
      · rw [if_neg hrc] at h
        cases h
        have hf : found w (some t) = some e := by unfold found; simp [he]
        rw [hf]
        refine ⟨place_family _ _ _ _, pick_protocol _ _ _, ?_, ?_, ?_, rfl, rfl, rfl, rfl⟩
        · exact congrArg Prod.fst (place_zero e c.layer2)
        · exact congrArg Prod.snd (place_zero e c.layer2)
        · show (pick e c.layer3 0).2 = portOf e (pick e c.layer3 0).1
          rw [pick_port, pick_protocol]

/-- What the far endpoint makes of the parameters. -/
theorem far_ok (w : World) (c : Config) (p q : Parameters) (h0 : p.rendezvous = 0) (h : far w c p = .ok q) :
    q.layer2 = ((found w c.farendpoint).bind familyOf).getD p.layer2 ∧ q.layer3 = ((found w c.farendpoint).bind protocolOf).getD p.layer3 ∧
    q.address4 = p.address4 ∧ q.address6 = p.address6 ∧ q.port = p.port ∧ q.interface = p.interface ∧
    (∀ e, found w c.farendpoint = some e → Somewhere e → q.server4 = e.ipv4 ∧ q.server6 = e.ipv6) ∧
    ((∀ e, found w c.farendpoint = some e → ¬ Somewhere e) → q.server4 = p.server4 ∧ q.server6 = p.server6) ∧
    q.rendezvous = ((found w c.farendpoint).map (fun e => portOf e q.layer3)).getD 0 := by
  unfold far at h
  cases hn : c.farendpoint with
  | none =>
    rw [hn] at h
    cases h
    exact ⟨rfl, rfl, rfl, rfl, rfl, rfl, fun _ h => (nomatch h), fun _ => ⟨rfl, rfl⟩, h0⟩
  | some t =>
    rw [hn] at h
    simp only [] at h
    cases he : w.endpoint t with
    | none => rw [he] at h; exact (nomatch h)
    | some r =>
      obtain ⟨rc, e⟩ := r
      rw [he] at h
      simp only [] at h
      by_cases hrc : rc < 0
      · rw [if_pos hrc] at h; exact (nomatch h)
      · rw [if_neg hrc] at h
        cases h
        have hf : found w (some t) = some e := by unfold found; simp [he]
        rw [hf]
        refine ⟨place_family _ _ _ _, pick_protocol _ _ _, rfl, rfl, rfl, rfl, ?_, ?_, ?_⟩
        · intro e' h' hs
          cases h'
          exact ⟨congrArg Prod.fst (place_somewhere e _ _ _ hs), congrArg Prod.snd (place_somewhere e _ _ _ hs)⟩
        · intro hs
          exact ⟨congrArg Prod.fst (place_nowhere e _ _ _ (hs e rfl)), congrArg Prod.snd (place_nowhere e _ _ _ (hs e rfl))⟩
        · show (pick e p.layer3 p.rendezvous).2 = portOf e (pick e p.layer3 p.rendezvous).1
          rw [h0, pick_port, pick_protocol]

/-- What the addresses and ports make of them. -/
theorem details_ok (w : World) (c : Config) (p : Parameters) :
    (details w c p).layer2 = p.layer2 ∧ (details w c p).layer3 = p.layer3 ∧ (details w c p).interface = p.interface ∧
    (details w c p).nearAddress = (match c.address with | some t => hostOf w t p.layer2 | none => p.nearAddress) ∧
    (details w c p).farAddress = (match c.server with | some t => hostOf w t p.layer2 | none => p.farAddress) ∧
    (details w c p).port = (match c.port, p.layer3 with | some t, .tcp => w.tcp t | some t, .udp => w.udp t | _, _ => p.port) ∧
    (details w c p).rendezvous = (match c.rendezvous with | some t => w.tcp t | none => p.rendezvous) := by
  obtain ⟨l2, l3, a4, a6, po, s4, s6, rv, i, b⟩ := p
  unfold details
  cases c.address <;> cases c.port <;> cases c.server <;> cases c.rendezvous <;> cases l2 <;> cases l3 <;> exact ⟨rfl, rfl, rfl, rfl, rfl, rfl, rfl⟩

theorem block_sized (c : Config) (n : BitVec 64) (h : block c = some n) :
    match c.blocksize with
    | none => n = 512
    | some t => Sized t n.toNat := by
  unfold block at h
  cases hb : c.blocksize with
  | none => rw [hb] at h; cases h; rfl
  | some t =>
    rw [hb] at h
    simp only [] at h
    by_cases he : (Number.unsigned t).2.1 ≠ []
    · rw [if_pos he] at h; exact (nomatch h)
    · rw [if_neg he] at h
      cases h
      show Sized t _
      have he' : (Number.strtoull t).2.1 = [] := Classical.byContradiction he
      by_cases ht : t = []
      · subst ht; exact Or.inl ⟨rfl, by decide⟩
      · obtain ⟨neg, m, hr, hv⟩ := (Line.strtoull_iff t ht _).mp ⟨he', rfl⟩
        refine Or.inr ⟨neg, m, hr, ?_⟩
        show (BitVec.ofNat 64 (Number.strtoull t).1).toNat = _
        rw [BitVec.toNat_ofNat]
        unfold Line.Value at hv
        by_cases hm : m < 2 ^ 64
        · rw [if_pos hm] at hv ⊢
          cases neg with
          | true => simp only [if_true] at hv ⊢; omega
          | false => simp only [Bool.false_eq_true, if_false] at hv ⊢; omega
        · rw [if_neg hm] at hv ⊢; omega

/-- A run that comes to its parameters. -/
theorem main_inv (w : World) (opts : List Opt) (memory : Bool) (p : Parameters) (h : main w opts memory = .prints p ∨ main w opts memory = .works p) :
    ∃ c p1 p2 n, options Config.start opts = some c ∧ c.interfaces = false ∧ near w c (Parameters.start c) = .ok p1 ∧ far w c p1 = .ok p2 ∧ check w c (details w c p2).layer2 = true ∧ block c = some n ∧
      p = { details w c p2 with blocksize := n } ∧ (c.exit = true ↔ main w opts memory = .prints p) := by
  unfold main at h ⊢
  cases ho : options Config.start opts with
  | none => rw [ho] at h; rcases h with h | h <;> exact (nomatch h)
  | some c =>
    rw [ho] at h
    simp only [] at h ⊢
    by_cases hi : c.interfaces = true
    · rw [if_pos hi] at h; rcases h with h | h <;> exact (nomatch h)
    · rw [if_neg hi] at h
      cases hn : near w c (Parameters.start c) with
      | error d =>
        rw [hn] at h
        simp only [] at h
        exfalso
        unfold near at hn
        cases h1 : c.nearendpoint with
        | none => rw [h1] at hn; exact (nomatch hn)
        | some t =>
          rw [h1] at hn
          simp only [] at hn
          cases h2 : w.endpoint t with
          | none => rw [h2] at hn; cases hn; rcases h with h | h <;> exact (nomatch h)
          | some r =>
            rw [h2] at hn
            simp only [] at hn
            by_cases h3 : r.1 < 0
            · rw [if_pos h3] at hn; cases hn; rcases h with h | h <;> exact (nomatch h)
            · rw [if_neg h3] at hn; exact (nomatch hn)
      | ok p1 =>
        rw [hn] at h
        simp only [] at h
        cases hf : far w c p1 with
        | error d =>
          rw [hf] at h
          simp only [] at h
          exfalso
          unfold far at hf
          cases h1 : c.farendpoint with
          | none => rw [h1] at hf; exact (nomatch hf)
          | some t =>
            rw [h1] at hf
            simp only [] at hf
            cases h2 : w.endpoint t with
            | none => rw [h2] at hf; cases hf; rcases h with h | h <;> exact (nomatch h)
            | some r =>
              rw [h2] at hf
              simp only [] at hf
              by_cases h3 : r.1 < 0
              · rw [if_pos h3] at hf; cases hf; rcases h with h | h <;> exact (nomatch h)
              · rw [if_neg h3] at hf; exact (nomatch hf)
        | ok p2 =>
          rw [hf] at h
          simp only [] at h
          cases hc : check w c (details w c p2).layer2 with
          | false => rw [hc, if_pos (by simp)] at h; rcases h with h | h <;> exact (nomatch h)
          | true =>
            rw [hc, if_neg (by simp)] at h
            cases hb : block c with
            | none => rw [hb] at h; rcases h with h | h <;> exact (nomatch h)
            | some n =>
              rw [hb] at h
              simp only [] at h
              refine ⟨c, p1, p2, n, rfl, by simpa using hi, hn, hf, hc, hb, ?_⟩
              rw [if_neg hi]
              simp only []
              rw [hf]
              simp only []
              rw [hc, if_neg (by simp)]
              cases hx : c.exit with
              | true =>
                rw [hx, if_pos rfl] at h
                rcases h with h | h
                · cases h; exact ⟨rfl, fun _ => by rw [if_pos rfl], fun _ => rfl⟩
                · exact (nomatch h)
              | false =>
                rw [hx, if_neg (by simp)] at h
                cases memory with
                | false => rw [if_pos (by simp)] at h; rcases h with h | h <;> exact (nomatch h)
                | true =>
                  rw [if_neg (by simp)] at h
                  rcases h with h | h
                  · exact (nomatch h)
                  · cases h; exact ⟨rfl, fun h => (nomatch h), fun h => by rw [if_neg (by simp), if_neg (by simp)] at h; exact (nomatch h)⟩

end Diminuto.Internettool
