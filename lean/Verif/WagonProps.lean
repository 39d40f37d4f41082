import Verif.WagonLemmas

/-!
# Property C171: conestoga prepares the line and the socket as its options say
-/

namespace Diminuto.Wagon

open Conestoga (Role Peer)

theorem first_unique {w : World} {b b' a a' : List Opt} {o o' : Opt} (h : b ++ o :: a = b' ++ o' :: a') (ho : Halts w b o) (ho' : Halts w b' o')
    (hb : ∀ x y z, b = x ++ y :: z → ¬ Halts w x y) (hb' : ∀ x y z, b' = x ++ y :: z → ¬ Halts w x y) : b = b' ∧ o = o' := by
  rcases List.append_eq_append_iff.1 h with ⟨d, h1, h2⟩ | ⟨d, h1, h2⟩
  · cases d with
    | nil =>
      simp only [List.append_nil] at h1
      simp only [List.nil_append, List.cons.injEq] at h2
      exact ⟨h1.symm, h2.1⟩
    | cons y d =>
      simp only [List.cons_append, List.cons.injEq] at h2
      exact absurd (h2.1 ▸ ho) (hb' b y d h1)
  · cases d with
    | nil =>
      simp only [List.append_nil] at h1
      simp only [List.nil_append, List.cons.injEq] at h2
      exact ⟨h1, h2.1.symm⟩
    | cons y d =>
      simp only [List.cons_append, List.cons.injEq] at h2
      exact absurd (h2.1 ▸ ho') (hb b' y d h1)

theorem prepare_not (w : World) (c : Config) : (prepare w c).2 ≠ .undefined ∧ (prepare w c).2 ≠ .exits 1 := by
  unfold prepare
  constructor <;> (repeat' split) <;> simp <;> (split <;> simp)

/-- An option at which the loop ends, and none before it. -/
def FirstAt (w : World) (opts b : List Opt) (o : Opt) : Prop :=
  (∃ a, opts = b ++ o :: a) ∧ Halts w b o ∧ ∀ x y z, b = x ++ y :: z → ¬ Halts w x y

/-- C171: the menu is printed, and the program exits with one, exactly if `-?`, or what is no option, is the first option that is not processed; the behaviour is undefined exactly if the first one is an endpoint that cannot be parsed, or a time out of more than 9223372036854 milliseconds. -/
theorem halts_iff (w : World) (opts : List Opt) :
    ((main w opts).2 = .exits 1 ↔ ∃ b, FirstAt w opts b .menu) ∧ ((main w opts).2 = .undefined ↔ ∃ b o, FirstAt w opts b o ∧ Undefined w b o) := by
  have hp := options_from w opts [] Config.start (tracks_start w)
  simp only [List.nil_append] at hp
  rcases hp with ⟨c, h1, -, h3⟩ | ⟨b, o, a, h1, h2, h3⟩
  · have hm : main w opts = prepare w c := by unfold main; rw [h1]
    rw [hm]
    constructor
    · refine ⟨fun h => absurd h (prepare_not w c).2, ?_⟩
      rintro ⟨b, ⟨a, ha⟩, hh, -⟩
      exact absurd hh (h3 b .menu a ha)
    · refine ⟨fun h => absurd h (prepare_not w c).1, ?_⟩
      rintro ⟨b, o, ⟨⟨a, ha⟩, hh, -⟩, -⟩
      exact absurd hh (h3 b o a ha)
  · rcases h3 with ⟨rfl, h3⟩ | ⟨hu, h3⟩
    · have hm : main w opts = ([], .exits 1) := by unfold main; rw [h3]
      rw [hm]
      constructor
      · exact ⟨fun _ => ⟨b, ⟨a, h1⟩, .inl rfl, h2⟩, fun _ => rfl⟩
      · refine ⟨fun h => (nomatch h), ?_⟩
        rintro ⟨b', o', ⟨⟨a', ha⟩, hh, hb⟩, hu⟩
        obtain ⟨rfl, rfl⟩ := first_unique (h1.symm.trans ha) (.inl rfl) hh h2 hb
        exact hu.elim
    · have hm : main w opts = ([], .undefined) := by unfold main; rw [h3]
      rw [hm]
      constructor
      · refine ⟨fun h => (nomatch h), ?_⟩
        rintro ⟨b', ⟨a', ha⟩, hh, hb⟩
        obtain ⟨rfl, rfl⟩ := first_unique (h1.symm.trans ha) (.inr hu) hh h2 hb
        exact hu.elim
      · exact ⟨fun _ => ⟨b, o, ⟨⟨a, h1⟩, .inr hu, h2⟩, hu⟩, fun _ => rfl⟩

/-- The loop over the options comes to its end. -/
def Processed (w : World) (opts : List Opt) : Prop := ∀ b o a, opts = b ++ o :: a → ¬ Halts w b o

theorem processed (w : World) (opts : List Opt) (h : Processed w opts) : ∃ c, main w opts = prepare w c ∧ Tracks w opts c := by
  have hp := options_from w opts [] Config.start (tracks_start w)
  simp only [List.nil_append] at hp
  rcases hp with ⟨c, h1, h2, -⟩ | ⟨b, o, a, h1, -, h3⟩
  · exact ⟨c, by unfold main; rw [h1], h2⟩
  · rcases h3 with ⟨rfl, -⟩ | ⟨hu, -⟩
    · exact absurd (.inl rfl) (h b .menu a h1)
    · exact absurd (.inr hu) (h b o a h1)

/-- C171: the variables are what the options say, each the last one that says something about it; and the status with which the program exits is that of the first stage that fails. -/
theorem status (w : World) (opts : List Opt) (h : Processed w opts) :
    ∃ c, Follows w opts c ∧ (AllAccepted w opts → Heeds w opts c) ∧ First (stages w opts c) (main w opts).2.status := by
  obtain ⟨c, hm, ht⟩ := processed w opts h
  refine ⟨c, ht.follows, ht.heeds, ?_⟩
  rw [hm]
  unfold prepare stages
  by_cases h2 : c.error = true
  · rw [if_pos h2]
    exact .fails fun ha => by rw [ht.error.2 ha] at h2; exact (nomatch h2)
  rw [if_neg h2]
  refine .passes (ht.error.1 (by simpa using h2)) ?_
  by_cases h3 : w.hangup = false ∨ w.terminator = false
  · rw [if_pos h3]
    exact .fails (by rintro ⟨a, b⟩; rw [a, b] at h3; simp at h3)
  rw [if_neg h3]
  refine .passes (by simpa using h3) ?_
  by_cases h4 : (line w c).2 = false
  · simp only [h4, if_true]
    exact .fails fun hl => by rw [(line_ready w c).2 hl] at h4; exact (nomatch h4)
  simp only [h4, if_false]
  refine .passes ((line_ready w c).1 (by simpa using h4)) ?_
  by_cases h5 : c.endpoint.type ≠ .ipv4 ∧ c.endpoint.type ≠ .ipv6
  · rw [if_pos h5]
    exact .fails (by rintro (a | a); exact h5.1 a; exact h5.2 a)
  rw [if_neg h5]
  have h5' : c.endpoint.type = .ipv4 ∨ c.endpoint.type = .ipv6 := by
    by_cases a : c.endpoint.type = .ipv4
    · exact .inl a
    · exact .inr (Classical.byContradiction fun b => h5 ⟨a, b⟩)
  refine .passes h5' ?_
  by_cases h6 : w.socket (socket c) = false
  · rw [if_pos h6]
    exact .fails fun hs => by rw [hs _ ((socket_iff c h5' _).2 rfl)] at h6; exact (nomatch h6)
  rw [if_neg h6]
  refine .passes (fun k hk => by rw [(socket_iff c h5' k).1 hk]; simpa using h6) ?_
  by_cases h7 : w.registerLine = false ∨ w.registerSocket = false
  · rw [if_pos h7]
    exact .fails (by rintro ⟨a, b⟩; rw [a, b] at h7; simp at h7)
  rw [if_neg h7]
  refine .passes (by simpa using h7) ?_
  by_cases h8 : w.frame = false ∨ w.datagram = false
  · rw [if_pos h8]
    exact .fails (by rintro ⟨a, b⟩; rw [a, b] at h8; simp at h8)
  rw [if_neg h8]
  exact .passes (by simpa using h8) .none

/-- What the program does before its work loop, and what this begins with. -/
structure Prepared (w : World) (opts : List Opt) (calls : List Call) (k : Work) (c : Config) : Prop where
  accepted : AllAccepted w opts
  follows : Follows w opts c
  heeds : Heeds w opts c
  calls : ∃ ls s, Lines w c ls ∧ Sockets c s ∧ calls = ls ++ [s]
  role : k.config.role = roleOf opts
  size : k.config.size = c.bufsize
  shared : k.config.shared = true ↔ c.device ≠ [45]
  timeout : k.timeout = c.timeout
  family : (k.ipv4 = true ∧ c.endpoint.type = .ipv4) ∨ (k.ipv4 = false ∧ c.endpoint.type = .ipv6)
  service : k.config.role = .client → k.config.service.port = c.endpoint.udp ∧
    k.config.service.address.toNat = if k.ipv4 then c.endpoint.ipv4.toNat else c.endpoint.ipv6.toNat

theorem main_works {w : World} {opts : List Opt} {calls : List Call} {k : Work} (h : main w opts = (calls, .works k)) : Processed w opts := by
  have hp := options_from w opts [] Config.start (tracks_start w)
  simp only [List.nil_append] at hp
  rcases hp with ⟨c, h1, -, h3⟩ | ⟨b, o, a, h1, -, h3⟩
  · exact h3
  · exfalso
    unfold main at h
    rcases h3 with ⟨-, h3⟩ | ⟨-, h3⟩
    · rw [h3] at h; exact (nomatch h)
    · rw [h3] at h; exact (nomatch h)

/-- C171: if the program comes to its work loop, then the line has been opened, and if it is a terminal set and made raw, and the socket has been made, as the options say; the work loop has the role, the service and the sizes that the options say. -/
theorem works_prepared (w : World) (opts : List Opt) (calls : List Call) (k : Work) (h : main w opts = (calls, .works k)) : ∃ c, Prepared w opts calls k c := by
  obtain ⟨c, hm, ht⟩ := processed w opts (main_works h)
  rw [hm] at h
  refine ⟨c, ?_⟩
  unfold prepare at h
  split at h
  · exact (nomatch h)
  rename_i h2
  split at h
  · exact (nomatch h)
  simp only [] at h
  split at h
  · exact (nomatch h)
  rename_i h4
  split at h
  · exact (nomatch h)
  rename_i h5
  split at h
  · exact (nomatch h)
  split at h
  · exact (nomatch h)
  split at h
  · exact (nomatch h)
  simp only [Prod.mk.injEq, Deed.works.injEq] at h
  obtain ⟨rfl, rfl⟩ := h
  have h5' : c.endpoint.type = .ipv4 ∨ c.endpoint.type = .ipv6 := by
    by_cases a : c.endpoint.type = .ipv4
    · exact .inl a
    · exact .inr (Classical.byContradiction fun b => h5 ⟨a, b⟩)
  have ha := ht.error.1 (by simpa using h2)
  refine ⟨ha, ht.follows, ht.heeds ha, ⟨(line w c).1, socket c, line_calls w c (by simpa using h4), (socket_iff c h5' _).2 rfl, rfl⟩, ht.follows.role, rfl, by simp, rfl, ?_, ?_⟩
  · rcases h5' with h5' | h5' <;> simp [h5']
  · intro hr
    have hr : c.role = .client := hr
    simp only [service, hr]
    rcases h5' with h5' | h5' <;> simp [h5']
    omega

/-- C171: if `-4`, `-6`, `-c` and `-s` come before `-E`, as the menu asks for, then a client has been given a service with an address and a port, and a server a port and no address.  Missing: the other orders, for which it is false. -/
theorem works_suits_partial (w : World) (opts : List Opt) (calls : List Call) (k : Work) (h : main w opts = (calls, .works k)) (ho : Ordered opts) :
    ∃ c t rc, Prepared w opts calls k c ∧ latest saysEndpoint opts = some t ∧ w.endpoint t (familyOf opts) = some (rc, c.endpoint) ∧ Suits c.endpoint k.config.role := by
  obtain ⟨c, hc⟩ := works_prepared w opts calls k h
  cases ht : latest saysEndpoint opts with
  | none =>
    have := hc.heeds.endpointNone ht
    rcases hc.family with ⟨-, h⟩ | ⟨-, h⟩ <;> (rw [h] at this; exact (nomatch this))
  | some t =>
    obtain ⟨b, a, rc, h1, h2, h3, h4, h5⟩ := hc.heeds.endpoint t ht
    obtain ⟨q1, q2⟩ := ho b t a h1
    have hsplit : ∀ {α : Type} (says : Opt → Option α), says (.endpoint t) = none → latest says a = none → latest says opts = latest says b := by
      intro α says n1 n2
      unfold latest at n2 ⊢
      rw [List.getLast?_eq_none_iff] at n2
      rw [h1, List.filterMap_append, List.filterMap_cons_none n1, n2, List.append_nil]
    refine ⟨c, t, rc, hc, rfl, ?_, ?_⟩
    · rw [show familyOf opts = familyOf b from by unfold familyOf; rw [hsplit saysFamily rfl q2]]
      exact h3
    · rw [hc.role, show roleOf opts = roleOf b from by unfold roleOf; rw [hsplit saysRole rfl q1]]
      exact h5

/-- C171: nothing is opened or made before all options have been accepted. -/
theorem nothing_before (w : World) (opts : List Opt) (h : ¬ AllAccepted w opts) : (main w opts).1 = [] ∧ ((main w opts).2 = .exits 1 ∨ (main w opts).2 = .exits 2 ∨ (main w opts).2 = .undefined) := by
  have hp := options_from w opts [] Config.start (tracks_start w)
  simp only [List.nil_append] at hp
  unfold main
  rcases hp with ⟨c, h1, h2, -⟩ | ⟨b, o, a, h1, -, ⟨-, h3⟩ | ⟨-, h3⟩⟩
  · rw [h1]
    have : c.error = true := by
      cases he : c.error with
      | true => rfl
      | false => exact absurd (h2.error.1 he) h
    simp only []
    rw [show prepare w c = ([], .exits 2) from by unfold prepare; rw [if_pos this]]
    exact ⟨rfl, .inr (.inl rfl)⟩
  · rw [h3]; exact ⟨rfl, .inl rfl⟩
  · rw [h3]; exact ⟨rfl, .inr (.inr rfl)⟩

/-- Everything succeeds; the endpoints are `a`, which is 127.0.0.1:99, and anything else, which is :99. -/
def easy : World where
  there := fun _ => true
  endpoint := fun t _ => some (0, { Endpoint.blank with type := .ipv4, ipv4 := if t = [97] then 0x7f000001 else 0, udp := 99 })
  daemon := fun _ => true
  hangup := true
  terminator := true
  opens := fun _ => some 3
  stream := true
  terminal := fun _ => true
  set := true
  raw := true
  socket := fun _ => true
  registerLine := true
  registerSocket := true
  frame := true
  datagram := true

/-- A client with a line. -/
example : main easy [.rate [57, 54, 48, 48], .device [100], .even, .seven, .client, .endpoint [97]] =
    ([.open [100], .set 3 9600 7 2 1 false false false, .raw 3, .peer4 0], .works ⟨⟨.client, ⟨0x7f000001, 99⟩, 65527, true⟩, true, 1000000000⟩) := by rfl

/-- A server on its standard streams. -/
example : main easy [.server, .endpoint [98], .size [56]] = ([.peer4 99], .works ⟨⟨.server, ⟨0, 0⟩, 8, false⟩, true, 1000000000⟩) ∧ Ordered [.server, .endpoint [98], .size [56]] := by
  refine ⟨rfl, ?_⟩
  intro b t a h
  rcases b with _ | ⟨x, _ | ⟨y, _ | ⟨z, b⟩⟩⟩ <;> simp at h
  obtain ⟨-, -, rfl⟩ := h
  exact ⟨rfl, rfl⟩

/-- C171, false if the role is changed after the endpoint: a server with the address of another host, which is not used; and a client without an address to send to. -/
theorem role_after_counterexample :
    main easy [.endpoint [97], .server] = ([.peer4 99], .works ⟨⟨.server, ⟨0, 0⟩, 65527, false⟩, true, 1000000000⟩) ∧
      main easy [.server, .endpoint [98], .client] = ([.peer4 0], .works ⟨⟨.client, ⟨0, 99⟩, 65527, false⟩, true, 1000000000⟩) := ⟨rfl, rfl⟩

/-- C171, false of large rates: 4294976896, which is 2^32 + 9600, is accepted as 9600. -/
theorem rate_counterexample : main easy [.rate [52, 50, 57, 52, 57, 55, 54, 56, 57, 54], .device [100], .endpoint [97]] =
    ([.open [100], .set 3 9600 8 0 1 false false false, .raw 3, .peer4 0], .works ⟨⟨.client, ⟨0x7f000001, 99⟩, 65527, true⟩, true, 1000000000⟩) := by rfl

/-- C171, false of negative numbers: `-b -1` is accepted as 65527 and `-t -1` as 2^64 - 1000000 nanoseconds; and `-t` with nothing is accepted as zero. -/
theorem negative_counterexample :
    main easy [.size [45, 49], .endpoint [97]] = ([.peer4 0], .works ⟨⟨.client, ⟨0x7f000001, 99⟩, 65527, false⟩, true, 1000000000⟩) ∧
      main easy [.timeout [45, 49], .endpoint [97]] = ([.peer4 0], .works ⟨⟨.client, ⟨0x7f000001, 99⟩, 65527, false⟩, true, 18446744073708551616⟩) ∧
      main easy [.timeout [], .endpoint [97]] = ([.peer4 0], .works ⟨⟨.client, ⟨0x7f000001, 99⟩, 65527, false⟩, true, 0⟩) := ⟨rfl, rfl, rfl⟩

/-- C171, false of long time outs: with `-t 10000000000000`, some 317 years, the behaviour is undefined. -/
theorem timeout_counterexample : (main easy [.timeout [49, 48, 48, 48, 48, 48, 48, 48, 48, 48, 48, 48, 48, 48], .endpoint [97]]).2 = .undefined := by rfl

/-- C171: without `-E` the line is opened and set before the program exits with five. -/
theorem missing_counterexample : main easy [.device [100]] = ([.open [100], .set 3 57600 8 0 1 false false false, .raw 3], .exits 5) ∧ AllAccepted easy [.device [100]] := by
  refine ⟨rfl, ?_⟩
  intro b o a h
  rcases b with _ | ⟨x, b⟩
  · cases h
    exact .inr rfl
  · simp at h

end Diminuto.Wagon
