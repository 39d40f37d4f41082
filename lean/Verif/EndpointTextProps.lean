import Verif.EndpointTextLemmas2

/-!
# Properties of the conversion of endpoints to strings
-/

namespace Diminuto.EndpointText

open Endpoint (Result Kind)

/-- What is printed for an endpoint of an address family, as much as fits; only the buffer is written.  All of it fits into a `diminuto_endpoint_buffer_t`, which
has 255 bytes. -/
theorem endpoint_text_shows {ntop : BitVec 128 → List Byte} (hn : Printer ntop) (realpath : List Byte → Option (List Byte)) (e : Result)
    (he : e.type = .ipv4 ∨ e.type = .ipv6) (buffer : List Byte) :
    ∃ s b, Shows ntop s e ∧ (∀ s', Shows ntop s' e → s' = s) ∧ s.length < 255 ∧ endpoint2string realpath ntop e buffer = some b ∧ b.length = buffer.length ∧
      (buffer ≠ [] → Ipcl.Holds b (s.take (buffer.length - 1))) := by
  refine ⟨shown ntop e, ?_⟩
  have hs := (shows_iff ntop e he (shown ntop e)).2 rfl
  have hu : ∀ s', Shows ntop s' e → s' = shown ntop e := fun s' h => (shows_iff ntop e he s').1 h
  have hl : (shown ntop e).length < 255 := by have := shown_length hn e; omega
  by_cases hb : buffer = []
  · subst hb
    exact ⟨[], hs, hu, hl, rfl, rfl, fun h => absurd rfl h⟩
  · have hb' : buffer.set 0 0#8 ≠ [] := by
      intro h
      have := congrArg List.length h
      rw [List.length_set] at this
      exact hb (List.eq_nil_of_length_eq_zero this)
    obtain ⟨h1, h2⟩ := snprintf_holds hb' (shown_nul hn e)
    rw [List.length_set] at h1 h2
    exact ⟨_, hs, hu, hl, printed4 hn realpath e he buffer hb, by rw [List.length_set]; exact h1, fun _ => h2⟩

/-- For an endpoint that is unspecified nothing is printed. -/
theorem endpoint_text_unspecified (ntop : BitVec 128 → List Byte) (realpath : List Byte → Option (List Byte)) (e : Result) (he : e.type = .unspecified)
    (buffer : List Byte) : ∃ b, endpoint2string realpath ntop e buffer = some b ∧ b.length = buffer.length ∧ (buffer ≠ [] → Ipcl.Holds b []) := by
  unfold endpoint2string
  cases buffer with
  | nil => exact ⟨[], rfl, rfl, fun h => absurd rfl h⟩
  | cons c r =>
    rw [if_pos (by simp)]
    simp only [he, Option.map_some]
    refine ⟨_, rfl, by simp, fun _ => ⟨by simp, ?_⟩⟩
    cases r with
    | nil => exact ⟨[], rfl⟩
    | cons d r => exact ⟨_, rfl⟩

/-- The full claim, that endpoints of address families can be told apart by what is printed: they must have an address. -/
theorem endpoint_text_apart_partial {ntop : BitVec 128 → List Byte} (hn : Printer ntop) (e f : Result) (he : e.type = .ipv4 ∨ e.type = .ipv6)
    (hf : f.type = .ipv4 ∨ f.type = .ipv6) (hea : e.ipv4 ≠ 0 ∨ e.ipv6 ≠ 0) (hfa : f.ipv4 ≠ 0 ∨ f.ipv6 ≠ 0) (s : List Byte) (hs : Shows ntop s e) (hs' : Shows ntop s f) :
    e.type = f.type ∧ e.ipv4 = f.ipv4 ∧ e.ipv6 = f.ipv6 ∧ e.tcp = f.tcp ∧ e.udp = f.udp := by
  have h : shown ntop e = shown ntop f := ((shows_iff ntop e he s).1 hs).symm.trans ((shows_iff ntop f hf s).1 hs')
  have mix : ∀ x y : Result, x.type = .ipv4 → y.type = .ipv6 → (x.ipv4 ≠ 0 ∨ x.ipv6 ≠ 0) → (y.ipv4 ≠ 0 ∨ y.ipv6 ≠ 0) → shown ntop x ≠ shown ntop y := by
    intro x y hx hy hxa hya h
    rw [shown4 ntop hx, shown6 ntop hy] at h
    obtain ⟨h1, h2⟩ := comma_inj (comma_host4 _ _ _) (comma_host6 hn _ _ _) (opt_comma _ _) (opt_comma _ _) h
    obtain ⟨hx4, hy6⟩ := host_mixed h1
    have hx6 : x.ipv6 ≠ 0 := hxa.resolve_left (fun h => h hx4)
    have hy4 : y.ipv4 ≠ 0 := hya.resolve_right (fun h => h hy6)
    rw [if_neg hx6, if_neg hy4] at h2
    exact hx6 (host_mixed (List.cons.inj h2).2.symm).2
  rcases he with he | he <;> rcases hf with hf | hf
  · rw [shown4 ntop he, shown4 ntop hf] at h
    obtain ⟨h1, h2⟩ := comma_inj (comma_host4 _ _ _) (comma_host4 _ _ _) (opt_comma _ _) (opt_comma _ _) h
    obtain ⟨h3, h4, h5⟩ := host4_inj h1
    refine ⟨he.trans hf.symm, h3, ?_, h4, h5⟩
    by_cases e6 : e.ipv6 = 0 <;> by_cases f6 : f.ipv6 = 0
    · exact e6.trans f6.symm
    · rw [if_pos e6, if_neg f6] at h2; cases h2
    · rw [if_neg e6, if_pos f6] at h2; cases h2
    · rw [if_neg e6, if_neg f6] at h2
      exact (host6_inj hn (List.cons.inj h2).2).1
  · exact absurd h (mix e f he hf hea hfa)
  · exact absurd h.symm (mix f e hf he hfa hea)
  · rw [shown6 ntop he, shown6 ntop hf] at h
    obtain ⟨h1, h2⟩ := comma_inj (comma_host6 hn _ _ _) (comma_host6 hn _ _ _) (opt_comma _ _) (opt_comma _ _) h
    obtain ⟨h3, h4, h5⟩ := host6_inj hn h1
    refine ⟨he.trans hf.symm, ?_, h3, h4, h5⟩
    by_cases e4 : e.ipv4 = 0 <;> by_cases f4 : f.ipv4 = 0
    · exact e4.trans f4.symm
    · rw [if_pos e4, if_neg f4] at h2; cases h2
    · rw [if_neg e4, if_pos f4] at h2; cases h2
    · rw [if_neg e4, if_neg f4] at h2
      exact (host4_inj (List.cons.inj h2).2).1

/-- The full claim is false: without an address, endpoints of both families look the same. -/
theorem endpoint_text_apart_counterexample (ntop : BitVec 128 → List Byte) (t u : BitVec 16) :
    ∃ s, Shows ntop s { Endpoint.blank with type := .ipv4, tcp := t, udp := u } ∧ Shows ntop s { Endpoint.blank with type := .ipv6, tcp := t, udp := u } := by
  refine ⟨ports t u, (shows_iff ntop _ (.inl rfl) _).2 ?_, (shows_iff ntop _ (.inr rfl) _).2 ?_⟩ <;> simp [shown, Endpoint.blank]

/-- The full claim, that an endpoint of an address family is read back as it was: there must be one address, of its family, and one port.  If there is no address,
there must be a port, and the family must be the one that is preferred. -/
theorem endpoint_text_round_trip_partial {ntop : BitVec 128 → List Byte} (hn : Printer ntop) (env : Endpoint.Env) (preference : Kind)
    (h4 : ∀ s a, Dotted s a → env.address4 s = a) (h6 : ∀ a, env.address6 (ntop a) = a) (e : Result) (hl : e.locale = []) (hp : e.tcp = e.udp)
    (hf : (e.type = .ipv4 ∧ e.ipv6 = 0 ∧ e.ipv4 ≠ 0) ∨ (e.type = .ipv6 ∧ e.ipv4 = 0 ∧ e.ipv6 ≠ 0) ∨
      (e.type = Endpoint.choose env preference ∧ e.ipv4 = 0 ∧ e.ipv6 = 0 ∧ e.tcp ≠ 0)) (s : List Byte) (hs : Shows ntop s e) :
    Endpoint.prefer env preference s = some (0, e) := by
  have ht : e.type = .ipv4 ∨ e.type = .ipv6 := by
    rcases hf with h | h | h
    · exact .inl h.1
    · exact .inr h.1
    · rw [h.1]
      unfold Endpoint.choose
      split
      · exact .inl rfl
      · exact .inr rfl
      · split
        · exact .inr rfl
        · exact .inl rfl
  rw [(shows_iff ntop e ht s).1 hs]
  rw [Endpoint.endpoint_meaning_partial env preference _ (shown_nul hn e) (by have := shown_length hn e; omega)]
  obtain ⟨type, ipv4, ipv6, tcp, udp, locale⟩ := e
  simp only at hl hp hf ht
  subst hl hp
  have fits : ∀ t, Endpoint.PortFits (.net t (portPhrase tcp)) = true := by
    intro t
    unfold portPhrase
    split
    · rfl
    · have := tcp.isLt
      exact decide_eq_true (by rw [value_decimal]; omega)
  have hports : ∀ t : Endpoint.Target, (∀ n, t ≠ .name n) → Endpoint.ports env t (portPhrase tcp) = (tcp, tcp) := by
    intro t hn
    unfold portPhrase
    by_cases h : tcp = 0
    · rw [if_pos h, h]
      cases t with
      | name n => exact absurd rfl (hn n)
      | _ => rfl
    · rw [if_neg h]
      cases t <;> simp only [Endpoint.ports, port_value]
  have hst : ∀ t : Endpoint.Target, (∀ n, t ≠ .name n) → (∀ n, t ≠ .fqdn n) → Endpoint.status env t (portPhrase tcp) = 0 := by
    intro t hn hq
    unfold portPhrase
    split
    · cases t with
      | name n => exact absurd rfl (hn n)
      | fqdn n => exact absurd rfl (hq n)
      | _ => rfl
    · cases t with
      | fqdn n => exact absurd rfl (hq n)
      | _ => rfl
  rcases hf with ⟨rfl, rfl, ha⟩ | ⟨rfl, rfl, ha⟩ | ⟨hc, rfl, rfl, ha⟩
  · have hg : Endpoint.grammar (shown ntop ⟨.ipv4, ipv4, 0, tcp, tcp, []⟩) = some (.net (.ipv4 (dotted ipv4)) (portPhrase tcp)) := by
      rw [shown4 ntop rfl]
      simp only [if_true, List.append_nil, host4, if_neg ha]
      exact grammar4 ipv4 tcp
    rw [hg]
    simp only []
    rw [if_pos (fits _)]
    unfold Endpoint.meaning
    simp only []
    rw [hst (.ipv4 (dotted ipv4)) (by simp) (by simp), hports (.ipv4 (dotted ipv4)) (by simp)]
    simp only [Endpoint.addresses, h4 _ _ (dotted_is ipv4), Endpoint.family, if_true]
    simp only [ne_eq, not_true_eq_false, false_and, if_false, ha, not_false_eq_true, if_true]
  · have hg : Endpoint.grammar (shown ntop ⟨.ipv6, 0, ipv6, tcp, tcp, []⟩) = some (.net (.ipv6 (ntop ipv6)) (portPhrase tcp)) := by
      rw [shown6 ntop rfl]
      simp only [if_true, List.append_nil, host6, if_neg ha]
      exact grammar6 hn ipv6 tcp
    rw [hg]
    simp only []
    rw [if_pos (fits _)]
    unfold Endpoint.meaning
    simp only []
    rw [hst (.ipv6 (ntop ipv6)) (by simp) (by simp), hports (.ipv6 (ntop ipv6)) (by simp)]
    simp only [Endpoint.addresses, h6, Endpoint.family, if_true]
    simp only [ne_eq, not_true_eq_false, and_false, if_false, ha, not_false_eq_true, if_true]
  · have hg : Endpoint.grammar (shown ntop ⟨type, 0, 0, tcp, tcp, []⟩) = some (.net .none (portPhrase tcp)) := by
      have : shown ntop ⟨type, 0, 0, tcp, tcp, []⟩ = ports tcp tcp := by
        rcases ht with rfl | rfl
        · rw [shown4 ntop rfl]; simp [host4]
        · rw [shown6 ntop rfl]; simp [host6]
      rw [this, grammar_port tcp ha]
      unfold portPhrase
      rw [if_neg ha]
    rw [hg]
    simp only []
    rw [if_pos (fits _)]
    unfold Endpoint.meaning
    simp only []
    rw [hst .none (by simp) (by simp), hports .none (by simp)]
    simp only [Endpoint.addresses, Endpoint.family, if_true]
    simp only [ne_eq, not_true_eq_false, and_false, if_false, hc]

/-- There is such a printer and such a resolver. -/
example : ∃ (ntop : BitVec 128 → List Byte) (env : Endpoint.Env), Printer ntop ∧ (∀ s a, Dotted s a → env.address4 s = a) ∧ ∀ a, env.address6 (ntop a) = a := by
  classical
  refine ⟨hexadecimal, { Endpoint.lost with address4 := fun s => (if h : ∃ a, Dotted s a then h.choose else 0), address6 := fun s => (if h : ∃ a, hexadecimal a = s then h.choose else 0) }, hexadecimal_printer, fun s a h => ?_, fun a => ?_⟩
  · have hx : ∃ a, Dotted s a := ⟨a, h⟩
    simp only [hx, dite_true]
    exact dotted_inj ((dotted_unique hx.choose_spec).symm.trans (dotted_unique h))
  · have hx : ∃ b, hexadecimal b = hexadecimal a := ⟨a, rfl⟩
    simp only [hx, dite_true]
    exact hexadecimal_printer.apart _ _ hx.choose_spec

/-- An endpoint that is read back: 127.0.0.1:80. -/
example (ntop : BitVec 128 → List Byte) : Shows ntop (Endpoint.chars "127.0.0.1:80") { Endpoint.blank with type := .ipv4, ipv4 := 0x7f000001, tcp := 80, udp := 80 } := by
  apply (shows_iff ntop _ (.inl rfl) _).2
  simp [shown, Endpoint.blank, ports, dotted, Number.decimal]
  decide

/-- The full claim is false: the IPv4 address 0.0.0.0 without a port is printed as nothing, and read back as the unnamed local socket; and so is the IPv6
address `::`. -/
theorem endpoint_text_any_counterexample (ntop : BitVec 128 → List Byte) (env : Endpoint.Env) (preference : Kind) (k : Kind) (hk : k = .ipv4 ∨ k = .ipv6) :
    Shows ntop [] { Endpoint.blank with type := k } ∧ Endpoint.prefer env preference [] = some (0, { Endpoint.blank with type := .locale }) := by
  constructor
  · apply (shows_iff ntop _ hk _).2
    rcases hk with rfl | rfl <;> simp [shown, Endpoint.blank, ports]
  · rw [Endpoint.endpoint_meaning_partial _ _ _ (by simp) (by simp)]
    rfl

/-- The full claim is false: what is printed for different ports, or for two addresses, is a syntax error. -/
theorem endpoint_text_syntax_counterexample (ntop : BitVec 128 → List Byte) (h1 : ntop 1 = [58#8, 58#8, 49#8]) (env : Endpoint.Env) (preference : Kind) :
    (Shows ntop (Endpoint.chars ":80:81") { Endpoint.blank with type := .ipv4, tcp := 80, udp := 81 } ∧
      Endpoint.prefer env preference (Endpoint.chars ":80:81") = some (-1, Endpoint.blank)) ∧
    (Shows ntop (Endpoint.chars "127.0.0.1,[::1]") { Endpoint.blank with type := .ipv4, ipv4 := 0x7f000001, ipv6 := 1 } ∧
      Endpoint.prefer env preference (Endpoint.chars "127.0.0.1,[::1]") = some (-1, Endpoint.blank)) := by
  refine ⟨⟨(shows_iff ntop _ (.inl rfl) _).2 ?_, ?_⟩, ⟨(shows_iff ntop _ (.inl rfl) _).2 ?_, ?_⟩⟩
  · simp [shown, Endpoint.blank, ports, Number.decimal]
    decide
  · rw [Endpoint.endpoint_meaning_partial _ _ _ (by decide) (by decide), show Endpoint.grammar (Endpoint.chars ":80:81") = none by decide +kernel]
  · have h1 : ntop 1#128 = [58#8, 58#8, 49#8] := h1
    simp [shown, Endpoint.blank, ports, dotted, Number.decimal, h1]
    decide
  · rw [Endpoint.endpoint_meaning_partial _ _ _ (by decide) (by decide), show Endpoint.grammar (Endpoint.chars "127.0.0.1,[::1]") = none by decide +kernel]

/-- A local endpoint whose path resolves to itself is printed as its path, and read back as it was. -/
theorem endpoint_text_local_partial (ntop : BitVec 128 → List Byte) (realpath : List Byte → Option (List Byte)) (hr : Ipcl.Absolute realpath) (env : Endpoint.Env)
    (preference : Kind) (s : List Byte) (h0 : 0#8 ∉ s) (hs : Ipcl.Names realpath s s) (hroot : ¬ Canonical.Root s) (he : env.path s = some s)
    (buffer : List Byte) (hb : s.length < buffer.length) :
    ∃ b, endpoint2string realpath ntop { Endpoint.blank with type := .locale, locale := s } buffer = some b ∧ b.length = buffer.length ∧ Ipcl.Holds b s ∧
      Endpoint.prefer env preference s = some (0, { Endpoint.blank with type := .locale, locale := s }) := by
  obtain ⟨⟨t, rfl, ht⟩, -, hl⟩ := Ipcl.ipcl_path_absolute realpath hr hs
  obtain ⟨b, h1, h2, -, -, h3, -⟩ := Ipcl.ipcl_path2string_partial realpath hr (some (47#8 :: t)) (fun q h => by cases h; exact h0) (fun q h => by cases h; exact hroot)
    (buffer.set 0 0#8)
  rw [List.length_set] at h2 h3
  have hpos : 1 < buffer.length := by rw [List.length_cons] at hb; omega
  obtain ⟨hz, r, hb'⟩ := h3 hpos _ _ rfl (by simp) (by omega) hs hb
  refine ⟨b.set (buffer.length - 1) 0#8, ?_, by rw [List.length_set]; exact h2, ⟨hz, ?_⟩, ?_⟩
  · unfold endpoint2string
    rw [if_pos (by omega)]
    simp only [h1, Option.map_some, List.length_set]
  · subst hb'
    rw [List.set_append_right _ _ (by omega)]
    cases hk : buffer.length - 1 - (47#8 :: t).length with
    | zero => exact ⟨_, rfl⟩
    | succ k => exact ⟨_, rfl⟩
  · rw [Endpoint.endpoint_meaning_partial env preference _ h0 (by omega)]
    have : Endpoint.grammar (47#8 :: t) = some (.path (47#8 :: t)) := by
      unfold Endpoint.grammar
      rw [List.dropWhile_cons_of_neg (by decide)]
      simp only []
      rw [if_pos (.inl rfl)]
    rw [this]
    simp only [Endpoint.PortFits, if_true, Endpoint.meaning, he]

/-- The hypotheses hold for `/x/b`. -/
example : Ipcl.Names (fun _ => some [47#8, 120#8]) [47#8, 120#8, 47#8, 98#8] [47#8, 120#8, 47#8, 98#8] ∧ ¬ Canonical.Root [47#8, 120#8, 47#8, 98#8] := by
  refine ⟨⟨[47#8, 120#8, 47#8], [98#8], [47#8, 120#8], .nominal [47#8, 120#8] [98#8] (by decide) (by decide) (by decide), by decide, rfl, by decide, by decide⟩, ?_⟩
  rintro ⟨f, h, e⟩
  cases e
  exact absurd h (by decide)

end Diminuto.EndpointText
