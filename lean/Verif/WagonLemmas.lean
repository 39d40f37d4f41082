import Verif.WagonSpec
import Verif.InternettoolLemmas

/-!
# Lemmas: the options and the preparations of the tool that passes datagrams over a serial line
-/

namespace Diminuto.Wagon

open Conestoga (Role Peer)

theorem latest_snoc {α : Type} (says : Opt → Option α) (l : List Opt) (o : Opt) : latest says (l ++ [o]) = (says o).or (latest says l) := by
  unfold latest
  rw [List.filterMap_append]
  cases h : says o with
  | none => rw [List.filterMap_cons_none h, List.filterMap_nil, List.append_nil, Option.none_or]
  | some a => rw [List.filterMap_cons_some h, List.filterMap_nil, List.getLast?_append, List.getLast?_singleton, Option.some_or]

theorem means_iff (t : List Byte) (v : Nat) : Means t v ↔ (Number.strtoull t).2.1 = [] ∧ (Number.strtoull t).1 = v := by
  by_cases ht : t = []
  · subst ht
    have h0 : Number.strtoull [] = (0, [], none) := by decide
    rw [h0]
    constructor
    · rintro (⟨-, h⟩ | ⟨neg, n, hr, hv⟩)
      · exact ⟨rfl, h.symm⟩
      · exfalso
        rw [← Number.scan_iff] at hr
        exact absurd hr (by rw [show Number.scan [] = none from by decide]; simp)
    · rintro ⟨-, h⟩
      exact .inl ⟨rfl, h.symm⟩
  · rw [Line.strtoull_iff t ht v]
    constructor
    · rintro (⟨h, -⟩ | ⟨neg, n, hr, hv⟩)
      · exact absurd h ht
      · refine ⟨neg, n, hr, ?_⟩
        unfold Line.Value
        by_cases hn : n < 2 ^ 64
        · rw [if_pos hn] at hv ⊢
          cases neg with
          | true => simp only [if_true] at hv ⊢; omega
          | false => simpa using hv
        · rw [if_neg hn] at hv ⊢; exact hv
    · rintro ⟨neg, n, hr, hv⟩
      refine .inr ⟨neg, n, hr, ?_⟩
      unfold Line.Value at hv
      by_cases hn : n < 2 ^ 64
      · rw [if_pos hn] at hv ⊢
        cases neg with
        | true => simp only [if_true] at hv ⊢; omega
        | false => simpa using hv
      · rw [if_neg hn] at hv ⊢; exact hv

theorem accepted_nil (w : World) : AllAccepted w [] := by
  intro before o after h
  exact absurd h (by simp)

theorem accepted_snoc (w : World) (l : List Opt) (o : Opt) : AllAccepted w (l ++ [o]) ↔ AllAccepted w l ∧ Accepted w l o := by
  constructor
  · intro h
    exact ⟨fun b x a e => h b x (a ++ [o]) (by rw [e]; simp), h l o [] rfl⟩
  · rintro ⟨h1, h2⟩ b x a e
    rcases List.eq_nil_or_concat a with rfl | ⟨a', y, rfl⟩
    · obtain ⟨rfl, hx⟩ := List.append_inj' e rfl
      cases hx
      exact h2
    · rw [List.concat_eq_append, ← List.cons_append, ← List.append_assoc] at e
      obtain ⟨rfl, -⟩ := List.append_inj' e rfl
      exact h1 b x a' rfl

theorem refuses_iff (role : Role) (rc : Int) (e : Endpoint.Result) : refuses role rc e = false ↔ 0 ≤ rc ∧ Suits e role := by
  unfold refuses
  by_cases h1 : rc < 0
  · rw [if_pos h1]
    simp only [Bool.true_eq_false, false_iff, not_and]
    omega
  · rw [if_neg h1]
    have h1' : 0 ≤ rc := by omega
    simp only [h1', true_and]
    cases role with
    | client =>
      cases ht : e.type <;> by_cases hu : e.udp = 0 <;> by_cases h4 : e.ipv4 = 0 <;> by_cases h6 : e.ipv6 = 0 <;> simp [Suits, ht, hu, h4, h6]
    | server =>
      cases ht : e.type <;> by_cases hu : e.udp = 0 <;> by_cases h4 : e.ipv4 = 0 <;> by_cases h6 : e.ipv6 = 0 <;> simp [Suits, ht, hu, h4, h6]

theorem follows_start (w : World) : Follows w [] Config.start :=
  ⟨rfl, rfl, rfl, by simp [Config.start], by simp [Config.start], by simp [Config.start], rfl, rfl, rfl, rfl⟩

/-- The change that an option makes to the variables that always follow the options. -/
theorem follows_step (w : World) (l : List Opt) (c c' : Config) (o : Opt) (hf : Follows w l c) (h : option w c o = .ok c') : Follows w (l ++ [o]) c' := by
  obtain ⟨f1, f2, f3, f4, f5, f6, f7, f8, f9, f10⟩ := hf
  have key : ∃ e rate size timeout err, c' = { (match o with
      | .one => { c with stopbits := 1 }
      | .two => { c with stopbits := 2 }
      | .four => { c with preference := .ipv4 }
      | .six => { c with preference := .ipv6 }
      | .seven => { c with databits := 7 }
      | .eight => { c with databits := 8 }
      | .device t => { c with device := t }
      | .client => { c with role := .client }
      | .daemon => { c with daemons := c.daemons + 1 }
      | .even => { c with paritybit := 2 }
      | .modem => { c with modemcontrol := true }
      | .parityless => { c with paritybit := 0 }
      | .odd => { c with paritybit := 1 }
      | .hardware => { c with rtscts := true }
      | .server => { c with role := .server }
      | .software => { c with xonxoff := true }
      | _ => c : Config) with endpoint := e, baudrate := rate, bufsize := size, timeout := timeout, error := err } := by
    cases o <;> simp only [option] at h <;> try (cases h; exact ⟨_, _, _, _, _, rfl⟩)
    case menu => exact (nomatch h)
    case endpoint t =>
      cases he : w.endpoint t c.preference with
      | none => rw [he] at h; exact (nomatch h)
      | some x => rw [he] at h; cases h; exact ⟨_, _, _, _, _, rfl⟩
    case size t =>
      split at h <;> (cases h; exact ⟨_, _, _, _, _, rfl⟩)
    case timeout t =>
      split at h
      · cases h; exact ⟨_, _, _, _, _, rfl⟩
      · cases hu : Time.units2ticks (BitVec.ofNat 64 (Number.strtoull t).1).toInt 1000 with
        | none => rw [hu] at h; exact (nomatch h)
        | some x => rw [hu] at h; cases h; exact ⟨_, _, _, _, _, rfl⟩
  obtain ⟨e, rate, size, timeout, err, rfl⟩ := key
  constructor <;> cases o <;>
    simp [latest_snoc, saysStop, saysData, saysParity, saysFamily, saysRole, saysDevice, roleOf, familyOf, f1, f2, f3, f4, f5, f6, f7, f8, f9, f10]

theorem accepted_step (w : World) (l : List Opt) (c c' : Config) (o : Opt) (hf : Follows w l c) (h : option w c o = .ok c') :
    c'.error = false ↔ c.error = false ∧ Accepted w l o := by
  cases o <;> simp only [option] at h
  case rate t =>
    cases h
    simp only [Bool.or_eq_false_iff, decide_eq_false_iff_not, Accepted, not_or, Classical.not_not, means_iff]
    refine and_congr_right fun _ => ?_
    have hi : (BitVec.ofNat 32 (Number.strtoull t).1).toInt = if 2 * ((Number.strtoull t).1 % 2 ^ 32) < 2 ^ 32 then (((Number.strtoull t).1 % 2 ^ 32 : Nat) : Int) else (((Number.strtoull t).1 % 2 ^ 32 : Nat) : Int) - 2 ^ 32 := by
      rw [BitVec.toInt_eq_toNat_cond, BitVec.toNat_ofNat]
      rfl
    rw [hi]
    constructor
    · rintro ⟨h1, h2⟩
      refine ⟨_, ⟨h2, rfl⟩, ?_⟩
      split at h1 <;> omega
    · rintro ⟨v, ⟨h2, rfl⟩, h3, h4⟩
      refine ⟨?_, h2⟩
      rw [if_pos (by omega)]
      omega
  case device t =>
    cases h
    simp only [Bool.or_eq_false_iff, Accepted, Bool.and_eq_false_iff, decide_eq_false_iff_not, Classical.not_not, ne_eq, Bool.not_eq_false']
  case endpoint t =>
    rw [hf.preference] at h
    cases he : w.endpoint t (familyOf l) with
    | none => rw [he] at h; exact (nomatch h)
    | some x =>
      obtain ⟨rc, e⟩ := x
      rw [he] at h
      cases h
      simp only [Bool.or_eq_false_iff, refuses_iff, Accepted, he, Option.some.injEq, Prod.mk.injEq, hf.role]
      refine and_congr_right fun _ => ⟨fun h => ⟨rc, e, ⟨rfl, rfl⟩, h⟩, ?_⟩
      rintro ⟨rc, e, ⟨rfl, rfl⟩, h⟩
      exact h
  case size t =>
    simp only [Accepted, means_iff]
    split at h
    · rename_i hs
      cases h
      simp only [Bool.true_eq_false, false_iff, not_and]
      rintro - ⟨v, ⟨h1, h2⟩, h3⟩
      rcases hs with hs | hs
      · omega
      · exact hs h1
    · rename_i hs
      cases h
      simp only [iff_self_and]
      intro _
      rw [not_or] at hs
      exact ⟨_, ⟨Classical.byContradiction hs.2, rfl⟩, by omega⟩
  case daemon =>
    cases h
    simp only [Bool.or_eq_false_iff, Accepted, hf.daemons, Bool.not_eq_false']
  case timeout t =>
    simp only [Accepted, means_iff]
    split at h
    · rename_i hs
      cases h
      simp only [Bool.true_eq_false, false_iff, not_and]
      rintro - ⟨v, h1, h2⟩
      exact hs h1
    · rename_i hs
      cases hu : Time.units2ticks (BitVec.ofNat 64 (Number.strtoull t).1).toInt 1000 with
      | none => rw [hu] at h; exact (nomatch h)
      | some x =>
        rw [hu] at h
        cases h
        simp only [iff_self_and]
        intro _
        exact ⟨_, Classical.byContradiction hs, rfl⟩
  case menu => exact (nomatch h)
  all_goals (cases h; simp only [Accepted, and_true])

theorem ticks_eq (u : Int) : Time.units2ticks u 1000 = Time.chk (u * 1000000) := by
  have hf : Time.frequency = 1000000000 := rfl
  unfold Time.units2ticks
  rw [if_neg (by rw [hf]; omega), if_pos (by rw [hf]; omega)]
  rw [show Time.div? Time.frequency 1000 = some 1000000 from by decide]
  rfl

theorem means_lt {t : List Byte} {v : Nat} (h : Means t v) : v < 2 ^ 64 := by
  rcases h with ⟨-, rfl⟩ | ⟨neg, n, -, rfl⟩
  · decide
  · split
    · split
      · exact Nat.mod_lt _ (by decide)
      · assumption
    · decide

theorem toInt64 (v : Nat) (h : v < 2 ^ 64) : (BitVec.ofNat 64 v).toInt = if v < 2 ^ 63 then (v : Int) else (v : Int) - 2 ^ 64 := by
  rw [BitVec.toInt_eq_toNat_cond, BitVec.toNat_ofNat, Nat.mod_eq_of_lt h]
  by_cases hv : v < 2 ^ 63
  · rw [if_pos (by omega), if_pos hv]
  · rw [if_neg (by omega), if_neg hv]; rfl

theorem ofInt_nonneg (x : Int) (h1 : 0 ≤ x) (h2 : x ≤ 9223372036854775807) : (BitVec.ofInt 64 x).toNat = x.toNat := by
  rw [BitVec.toNat_ofInt, Int.emod_eq_of_lt h1 (by omega)]

theorem ofInt_neg (x : Int) (h1 : x < 0) (h2 : -9223372036854775808 ≤ x) : (BitVec.ofInt 64 x).toNat = (x + 18446744073709551616).toNat := by
  rw [BitVec.toNat_ofInt]
  have : x % ((2 ^ 64 : Nat) : Int) = x + 18446744073709551616 := by
    rw [show ((2 ^ 64 : Nat) : Int) = 18446744073709551616 from rfl, ← Int.add_emod_right, Int.emod_eq_of_lt (by omega) (by omega)]
  rw [this]

/-- The time out of a number of milliseconds. -/
theorem ticks_some {v : Nat} (hv : v < 2 ^ 64) : (Time.units2ticks (BitVec.ofNat 64 v).toInt 1000 = none ↔ 9223372036854 < v ∧ v < 2 ^ 64 - 9223372036854) ∧
    ∀ x, Time.units2ticks (BitVec.ofNat 64 v).toInt 1000 = some x →
      (v ≤ 9223372036854 ∧ (BitVec.ofInt 64 x).toNat = v * 1000000) ∨ (2 ^ 64 - 9223372036854 ≤ v ∧ (BitVec.ofInt 64 x).toNat = 2 ^ 64 - (2 ^ 64 - v) * 1000000) := by
  rw [ticks_eq, toInt64 v hv]
  unfold Time.chk
  by_cases hs : v < 2 ^ 63
  · rw [if_pos hs]
    by_cases hr : -9223372036854775808 ≤ (v : Int) * 1000000 ∧ (v : Int) * 1000000 ≤ 9223372036854775807
    · rw [if_pos hr]
      refine ⟨⟨fun h => (nomatch h), fun h => by omega⟩, fun x hx => ?_⟩
      simp only [Option.some.injEq] at hx
      subst hx
      rw [ofInt_nonneg _ (by omega) hr.2]
      left
      omega
    · rw [if_neg hr]
      exact ⟨⟨fun _ => by omega, fun _ => rfl⟩, fun x hx => (nomatch hx)⟩
  · rw [if_neg hs]
    by_cases hr : -9223372036854775808 ≤ ((v : Int) - 2 ^ 64) * 1000000 ∧ ((v : Int) - 2 ^ 64) * 1000000 ≤ 9223372036854775807
    · rw [if_pos hr]
      refine ⟨⟨fun h => (nomatch h), fun h => by omega⟩, fun x hx => ?_⟩
      simp only [Option.some.injEq] at hx
      subst hx
      rw [ofInt_neg _ (by omega) hr.1]
      right
      omega
    · rw [if_neg hr]
      exact ⟨⟨fun _ => by omega, fun _ => rfl⟩, fun x hx => (nomatch hx)⟩

theorem heeds_start (w : World) : Heeds w [] Config.start :=
  ⟨fun _ => rfl, fun _ h => absurd h (by simp [latest]), fun _ => rfl, fun _ h => absurd h (by simp [latest]), fun _ => rfl, fun _ h => absurd h (by simp [latest]), fun _ => rfl,
    fun _ h => absurd h (by simp [latest])⟩

/-- The endpoint stays if an option says nothing about it. -/
theorem endpoint_keep {w : World} {l : List Opt} {o : Opt} {e : Endpoint.Result} (ho : saysEndpoint o = none)
    (h : ∀ t, latest saysEndpoint l = some t → ∃ before after rc, l = before ++ .endpoint t :: after ∧ latest saysEndpoint after = none ∧
      w.endpoint t (familyOf before) = some (rc, e) ∧ 0 ≤ rc ∧ Suits e (roleOf before)) :
    ∀ t, latest saysEndpoint (l ++ [o]) = some t → ∃ before after rc, l ++ [o] = before ++ .endpoint t :: after ∧ latest saysEndpoint after = none ∧
      w.endpoint t (familyOf before) = some (rc, e) ∧ 0 ≤ rc ∧ Suits e (roleOf before) := by
  intro t ht
  rw [latest_snoc, ho, Option.none_or] at ht
  obtain ⟨b, a, rc, h1, h2, h3⟩ := h t ht
  exact ⟨b, a ++ [o], rc, by rw [h1]; simp, by rw [latest_snoc, ho, Option.none_or]; exact h2, h3⟩

theorem heeds_step (w : World) (l : List Opt) (c c' : Config) (o : Opt) (hf : Follows w l c) (hh : Heeds w l c) (ha : Accepted w l o) (h : option w c o = .ok c') :
    Heeds w (l ++ [o]) c' := by
  obtain ⟨r1, r2, s1, s2, t1, t2, e1, e2⟩ := hh
  have same : ∀ d : Config, d.baudrate = c.baudrate → d.bufsize = c.bufsize → d.timeout = c.timeout → d.endpoint = c.endpoint → saysRate o = none → saysSize o = none →
      saysTimeout o = none → saysEndpoint o = none → Heeds w (l ++ [o]) d := by
    intro d q1 q2 q3 q4 n1 n2 n3 n4
    constructor
    · intro hn
      rw [latest_snoc, n1, Option.none_or] at hn
      rw [q1]
      exact r1 hn
    · intro t ht
      rw [latest_snoc, n1, Option.none_or] at ht
      rw [q1]
      exact r2 t ht
    · intro hn
      rw [latest_snoc, n2, Option.none_or] at hn
      rw [q2]
      exact s1 hn
    · intro t ht
      rw [latest_snoc, n2, Option.none_or] at ht
      rw [q2]
      exact s2 t ht
    · intro hn
      rw [latest_snoc, n3, Option.none_or] at hn
      rw [q3]
      exact t1 hn
    · intro t ht
      rw [latest_snoc, n3, Option.none_or] at ht
      rw [q3]
      exact t2 t ht
    · intro hn
      rw [latest_snoc, n4, Option.none_or] at hn
      rw [q4]
      exact e1 hn
    · rw [q4]
      exact endpoint_keep n4 e2
  cases o <;> simp only [option] at h
  case rate t =>
    cases h
    obtain ⟨v, hm, h1, h2⟩ := ha
    constructor
    · intro hn
      rw [latest_snoc] at hn
      exact (nomatch hn)
    · intro t' ht
      rw [latest_snoc] at ht
      cases ht
      refine ⟨v, hm, ?_⟩
      obtain ⟨-, rfl⟩ := (means_iff t v).1 hm
      have hi : (BitVec.ofNat 32 (Number.strtoull t).1).toInt = (((Number.strtoull t).1 % 2 ^ 32 : Nat) : Int) := by
        rw [BitVec.toInt_eq_toNat_cond, BitVec.toNat_ofNat, if_pos (by omega)]
      show (BitVec.ofNat 32 (Number.strtoull t).1).toInt = _ ∧ 0 < (BitVec.ofNat 32 (Number.strtoull t).1).toInt ∧ (BitVec.ofNat 32 (Number.strtoull t).1).toInt < 2 ^ 31
      rw [hi]
      exact ⟨rfl, by omega, by omega⟩
    · intro hn; rw [latest_snoc] at hn; exact s1 hn
    · intro t' ht; rw [latest_snoc] at ht; exact s2 t' ht
    · intro hn; rw [latest_snoc] at hn; exact t1 hn
    · intro t' ht; rw [latest_snoc] at ht; exact t2 t' ht
    · intro hn; rw [latest_snoc] at hn; exact e1 hn
    · exact endpoint_keep rfl e2
  case endpoint t =>
    rw [hf.preference] at h
    obtain ⟨rc, e, he, h1, h2⟩ := ha
    rw [he] at h
    cases h
    constructor
    · intro hn; rw [latest_snoc] at hn; exact r1 hn
    · intro t' ht; rw [latest_snoc] at ht; exact r2 t' ht
    · intro hn; rw [latest_snoc] at hn; exact s1 hn
    · intro t' ht; rw [latest_snoc] at ht; exact s2 t' ht
    · intro hn; rw [latest_snoc] at hn; exact t1 hn
    · intro t' ht; rw [latest_snoc] at ht; exact t2 t' ht
    · intro hn; rw [latest_snoc] at hn; exact (nomatch hn)
    · intro t' ht
      rw [latest_snoc] at ht
      cases ht
      exact ⟨l, [], rc, rfl, rfl, he, h1, h2⟩
  case size t =>
    obtain ⟨v, hm, h1⟩ := ha
    obtain ⟨hw, hv⟩ := (means_iff t v).1 hm
    rw [if_neg (by rw [not_or]; exact ⟨by omega, fun hn => hn hw⟩)] at h
    cases h
    constructor
    · intro hn; rw [latest_snoc] at hn; exact r1 hn
    · intro t' ht; rw [latest_snoc] at ht; exact r2 t' ht
    · intro hn; rw [latest_snoc] at hn; exact (nomatch hn)
    · intro t' ht
      rw [latest_snoc] at ht
      cases ht
      refine ⟨v, hm, h1, ?_⟩
      show (if (Number.strtoull t).1 > MAXDATAGRAM then MAXDATAGRAM else (Number.strtoull t).1) = _
      rw [hv]
      have : MAXDATAGRAM = 65527 := rfl
      rw [this]
      split <;> omega
    · intro hn; rw [latest_snoc] at hn; exact t1 hn
    · intro t' ht; rw [latest_snoc] at ht; exact t2 t' ht
    · intro hn; rw [latest_snoc] at hn; exact e1 hn
    · exact endpoint_keep rfl e2
  case timeout t =>
    obtain ⟨v, hm⟩ := ha
    obtain ⟨hw, hv⟩ := (means_iff t v).1 hm
    rw [if_neg (fun hn => hn hw), hv] at h
    cases hu : Time.units2ticks (BitVec.ofNat 64 v).toInt 1000 with
    | none => rw [hu] at h; exact (nomatch h)
    | some x =>
      rw [hu] at h
      cases h
      constructor
      · intro hn; rw [latest_snoc] at hn; exact r1 hn
      · intro t' ht; rw [latest_snoc] at ht; exact r2 t' ht
      · intro hn; rw [latest_snoc] at hn; exact s1 hn
      · intro t' ht; rw [latest_snoc] at ht; exact s2 t' ht
      · intro hn; rw [latest_snoc] at hn; exact (nomatch hn)
      · intro t' ht
        rw [latest_snoc] at ht
        cases ht
        exact ⟨v, hm, (ticks_some (means_lt hm)).2 x hu⟩
      · intro hn; rw [latest_snoc] at hn; exact e1 hn
      · exact endpoint_keep rfl e2
  case menu => exact (nomatch h)
  all_goals (cases h; exact same _ rfl rfl rfl rfl rfl rfl rfl rfl)

/-- What is known of the variables after some options. -/
structure Tracks (w : World) (l : List Opt) (c : Config) : Prop where
  follows : Follows w l c
  error : c.error = false ↔ AllAccepted w l
  heeds : AllAccepted w l → Heeds w l c

theorem tracks_start (w : World) : Tracks w [] Config.start := ⟨follows_start w, ⟨fun _ => accepted_nil w, fun _ => rfl⟩, fun _ => heeds_start w⟩

theorem tracks_step (w : World) (l : List Opt) (c c' : Config) (o : Opt) (ht : Tracks w l c) (h : option w c o = .ok c') : Tracks w (l ++ [o]) c' := by
  refine ⟨follows_step w l c c' o ht.follows h, ?_, fun ha => ?_⟩
  · rw [accepted_step w l c c' o ht.follows h, accepted_snoc, ht.error]
  · rw [accepted_snoc] at ha
    exact heeds_step w l c c' o ht.follows (ht.heeds ha.1) ha.2 h

theorem option_undefined (w : World) (l : List Opt) (c : Config) (o : Opt) (hf : Follows w l c) : option w c o = .undefined ↔ Undefined w l o := by
  cases o <;> simp only [option, Undefined, reduceCtorEq]
  case endpoint t =>
    rw [hf.preference]
    cases w.endpoint t (familyOf l) <;> simp
  case size t => split <;> simp
  case timeout t =>
    by_cases hw : (Number.strtoull t).2.1 = []
    · have hm : Means t (Number.strtoull t).1 := (means_iff t _).2 ⟨hw, rfl⟩
      rw [if_neg (fun hn => hn hw)]
      have h1 := (ticks_some (means_lt hm)).1
      constructor
      · intro h
        refine ⟨_, hm, h1.1 ?_⟩
        cases hu : Time.units2ticks (BitVec.ofNat 64 (Number.strtoull t).1).toInt 1000 with
        | none => rfl
        | some x => rw [hu] at h; exact (nomatch h)
      · rintro ⟨v, hv, h2⟩
        obtain ⟨-, rfl⟩ := (means_iff t v).1 hv
        rw [h1.2 h2]
    · rw [if_pos hw]
      simp only [reduceCtorEq, false_iff]
      rintro ⟨v, hv, -⟩
      exact hw ((means_iff t v).1 hv).1

theorem option_menu (w : World) (c : Config) (o : Opt) : option w c o = .menu ↔ o = .menu := by
  cases o <;> simp only [option, reduceCtorEq]
  case endpoint t => cases w.endpoint t c.preference <;> simp
  case size t => split <;> simp
  case timeout t =>
    split
    · simp
    · cases Time.units2ticks (BitVec.ofNat 64 (Number.strtoull t).1).toInt 1000 <;> simp

/-- An option at which the loop ends. -/
def Halts (w : World) (before : List Opt) (o : Opt) : Prop := o = .menu ∨ Undefined w before o

theorem options_from (w : World) : ∀ (r l : List Opt) (c : Config), Tracks w l c →
    (∃ c', options w c r = .ok c' ∧ Tracks w (l ++ r) c' ∧ ∀ b o a, r = b ++ o :: a → ¬ Halts w (l ++ b) o) ∨
      ∃ b o a, r = b ++ o :: a ∧ (∀ b' o' a', b = b' ++ o' :: a' → ¬ Halts w (l ++ b') o') ∧
        ((o = .menu ∧ options w c r = .menu) ∨ (Undefined w (l ++ b) o ∧ options w c r = .undefined)) := by
  intro r
  induction r with
  | nil =>
    intro l c ht
    exact .inl ⟨c, rfl, by rw [List.append_nil]; exact ht, fun b o a h => absurd h (by simp)⟩
  | cons o r ih =>
    intro l c ht
    cases ho : option w c o with
    | menu =>
      refine .inr ⟨[], o, r, rfl, fun b' o' a' h => absurd h (by simp), .inl ⟨(option_menu w c o).1 ho, ?_⟩⟩
      simp only [options, ho]
    | undefined =>
      refine .inr ⟨[], o, r, rfl, fun b' o' a' h => absurd h (by simp), .inr ⟨?_, ?_⟩⟩
      · rw [List.append_nil]; exact (option_undefined w l c o ht.follows).1 ho
      · simp only [options, ho]
    | ok c1 =>
      have hno : ¬ Halts w l o := by
        rintro (h | h)
        · rw [(option_menu w c o).2 h] at ho; exact (nomatch ho)
        · rw [(option_undefined w l c o ht.follows).2 h] at ho; exact (nomatch ho)
      rcases ih (l ++ [o]) c1 (tracks_step w l c c1 o ht ho) with ⟨c', h1, h2, h3⟩ | ⟨b, x, a, h1, h2, h3⟩
      · refine .inl ⟨c', by simp only [options, ho]; exact h1, by rw [List.append_assoc] at h2; exact h2, ?_⟩
        intro b x a h
        cases b with
        | nil =>
          cases h
          rw [List.append_nil]
          exact hno
        | cons y b =>
          simp only [List.cons_append, List.cons.injEq] at h
          obtain ⟨rfl, h⟩ := h
          have := h3 b x a h
          rwa [List.append_assoc] at this
      · refine .inr ⟨o :: b, x, a, by rw [h1]; rfl, ?_, ?_⟩
        · intro b' o' a' h
          cases b' with
          | nil =>
            cases h
            rw [List.append_nil]
            exact hno
          | cons y b' =>
            simp only [List.cons_append, List.cons.injEq] at h
            obtain ⟨rfl, h⟩ := h
            have := h2 b' o' a' h
            rwa [List.append_assoc] at this
        · rw [List.append_assoc] at h3
          simpa only [options, ho, List.singleton_append] using h3

theorem line_ready (w : World) (c : Config) : (line w c).2 = true ↔ LineReady w c := by
  unfold line LineReady
  by_cases hd : c.device = [45]
  · simp [hd]
  · rw [if_neg hd]
    have hd' : ¬ c.device = [45#8] := hd
    cases ho : w.opens c.device with
    | none => simp [hd']
    | some fd => cases hs : w.stream <;> cases ht : w.terminal fd <;> cases hq : w.set <;> simp [hd', ht]

theorem line_calls (w : World) (c : Config) (h : (line w c).2 = true) : Lines w c (line w c).1 := by
  unfold line at h ⊢
  by_cases hd : c.device = [45]
  · rw [if_pos hd]; exact .standard hd
  · rw [if_neg hd] at h ⊢
    cases ho : w.opens c.device with
    | none => rw [ho] at h; exact (nomatch h)
    | some fd =>
      rw [ho] at h
      simp only [] at h ⊢
      by_cases hs : w.stream = false
      · rw [if_pos hs] at h; exact (nomatch h)
      · rw [if_neg hs] at h ⊢
        by_cases ht : w.terminal fd = false
        · rw [if_pos ht]; exact .file hd ho ht
        · rw [if_neg ht] at h ⊢
          by_cases hq : w.set = false
          · rw [if_pos hq] at h; exact (nomatch h)
          · rw [if_neg hq]; exact .terminal hd ho (by simpa using ht)

theorem socket_iff (c : Config) (ht : c.endpoint.type = .ipv4 ∨ c.endpoint.type = .ipv6) (k : Call) : Sockets c k ↔ k = socket c := by
  unfold Sockets socket
  rcases ht with ht | ht <;> cases hr : c.role <;> simp [ht]

end Diminuto.Wagon
