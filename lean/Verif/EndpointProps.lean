import Verif.EndpointLemmas

/-!
# Properties of the endpoint parser (C47)
-/

namespace Diminuto.Endpoint

/-! ## The parser is the automaton -/

/-- C47: what the function returns, for every string that fits into the buffer.  `none`, which is undefined behaviour, only if the port is not
representable in an `int`. -/
theorem endpoint_meaning_partial (env : Env) (preference : Kind) (s : List Byte) (h0 : 0#8 ∉ s) (hl : s.length < 4096) :
    prefer env preference s = match grammar s with
      | none => some (-1, blank)
      | some p => if PortFits p then some (meaning env preference p) else none := by
  rw [prefer_hand env preference h0 hl]
  cases grammar s with
  | none => rfl
  | some p =>
    cases p with
    | path p => exact hand_path env preference p
    | net t p => exact hand_net env preference t p

/-- C47: every string that fits is parsed within the buffer and to an end, if its port is representable in an `int`. -/
theorem endpoint_total_partial (env : Env) (preference : Kind) (s : List Byte) (h0 : 0#8 ∉ s) (hl : s.length < 4096)
    (hp : ∀ t p, grammar s = some (.net t (.number p)) → value p < 2147483648) : prefer env preference s ≠ none := by
  rw [endpoint_meaning_partial env preference s h0 hl]
  cases h : grammar s with
  | none => simp
  | some p =>
    cases p with
    | path p => simp [PortFits]
    | net t p =>
      cases p with
      | none => simp [PortFits]
      | number p => simp [PortFits, hp t p h]
      | service p => simp [PortFits]

/-- C47: of those strings, exactly those with a syntax error are rejected as such, and then the structure says nothing. -/
theorem endpoint_syntax_partial (env : Env) (preference : Kind) (s : List Byte) (h0 : 0#8 ∉ s) (hl : s.length < 4096) (rc : Int) (e : Result)
    (h : prefer env preference s = some (rc, e)) : (rc = -1 ↔ grammar s = none) ∧ (rc = -1 → e = blank) ∧ (rc < 0 → e.type = .unspecified) ∧
      (rc = 0 → e.type ≠ .unspecified) := by
  rw [endpoint_meaning_partial env preference s h0 hl] at h
  cases hg : grammar s with
  | none =>
    simp only [hg, Option.some.injEq, Prod.mk.injEq] at h
    obtain ⟨rfl, rfl⟩ := h
    simp [blank]
  | some p =>
    simp only [hg] at h
    split at h
    · simp only [Option.some.injEq] at h
      cases p with
      | path p =>
        cases p with
        | nil =>
          simp only [meaning, Prod.mk.injEq] at h
          obtain ⟨rfl, rfl⟩ := h
          simp
        | cons c p =>
          simp only [meaning] at h
          split at h <;> simp only [Prod.mk.injEq] at h <;> obtain ⟨rfl, rfl⟩ := h <;> simp [blank]
      | net t p =>
        simp only [meaning, Prod.mk.injEq] at h
        obtain ⟨rfl, rfl⟩ := h
        have h1 := status_ne env t p
        refine ⟨by simp [h1], fun h => absurd h h1, fun h => ?_, fun h => ?_⟩
        · simp only []
          rw [if_neg (by omega)]
        · simp only []
          rw [if_pos h]
          unfold family choose
          grind
    · simp at h

/-- C47: a port of up to 65535 is what it says. -/
theorem endpoint_port_partial (env : Env) (preference : Kind) (s : List Byte) (h0 : 0#8 ∉ s) (hl : s.length < 4096) (t : Target) (p : List Byte)
    (hg : grammar s = some (.net t (.number p))) (hp : value p ≤ 65535) :
    ∃ rc e, prefer env preference s = some (rc, e) ∧ e.tcp.toNat = value p ∧ e.udp.toNat = value p := by
  rw [endpoint_meaning_partial env preference s h0 hl, hg]
  have : value p < 2147483648 := by omega
  simp only [PortFits, this, decide_true, if_true, meaning]
  refine ⟨_, _, rfl, ?_⟩
  have : ports env t (.number p) = (BitVec.ofNat 16 (value p), BitVec.ofNat 16 (value p)) := by cases t <;> rfl
  rw [this]
  simp only [BitVec.toNat_ofNat]
  constructor <;> exact Nat.mod_eq_of_lt (by omega)

/-- C47 is false: every string that is too long is accepted; the type of the endpoint is unspecified. -/
theorem endpoint_overlong_counterexample (env : Env) (preference : Kind) (s : List Byte) (h0 : 0#8 ∉ s) (hl : 4096 ≤ s.length) :
    prefer env preference s = some (0, blank) := by
  unfold prefer
  rw [if_pos (fill_long h0 hl)]

/-- There are such strings. -/
example : 0#8 ∉ List.replicate 5000 (ch 'a') ∧ 4096 ≤ (List.replicate 5000 (ch 'a')).length := by
  rw [List.length_replicate]
  exact ⟨fun h => absurd (List.eq_of_mem_replicate h) (by decide), by decide⟩

/-- C47 is false: a port of more than 65535 is reduced modulo 65536. -/
theorem endpoint_port_counterexample : prefer lost .ipv4 (chars ":65616") = some (0, { blank with type := .ipv4, tcp := 80, udp := 80 }) := by
  rw [endpoint_meaning_partial _ _ _ (by decide) (by decide)]
  decide +kernel

/-- C47 is false: a port of more than 2147483647 is undefined behaviour. -/
theorem endpoint_overflow_counterexample (env : Env) (preference : Kind) : prefer env preference (chars ":2147483648") = none := by
  rw [endpoint_meaning_partial _ _ _ (by decide) (by decide)]
  have : grammar (chars ":2147483648") = some (.net .none (.number (chars "2147483648"))) := by decide +kernel
  rw [this]
  have : PortFits (.net .none (.number (chars "2147483648"))) = false := by decide +kernel
  simp [this]

/-- C47: characters with which no endpoint begins are ignored at the beginning. -/
theorem endpoint_ignored (env : Env) (preference : Kind) (j s : List Byte) (hj : ∀ c ∈ j, starter c = false) (h0 : 0#8 ∉ j ++ s)
    (hl : (j ++ s).length < 4096) : prefer env preference (j ++ s) = prefer env preference s := by
  have h1 : 0#8 ∉ s := fun h => h0 (List.mem_append_right _ h)
  have h2 : s.length < 4096 := by simp only [List.length_append] at hl; omega
  rw [endpoint_meaning_partial _ _ _ h0 hl, endpoint_meaning_partial _ _ _ h1 h2]
  have : grammar (j ++ s) = grammar s := by
    unfold grammar
    have : (j ++ s).dropWhile (fun c => !starter c) = s.dropWhile (fun c => !starter c) := by
      rw [List.dropWhile_append_of_pos (by intro c hc; simp [hj c hc])]
    rw [this]
  rw [this]

/-- So `-1` is port 1, `~/socket` is `/socket`, and `?` is the unnamed socket. -/
theorem endpoint_ignored_counterexample : grammar (chars "-1") = some (.net .none (.number (chars "1"))) ∧
    grammar (chars "~/socket") = some (.path (chars "/socket")) ∧ grammar (chars "?") = some (.path []) := by
  decide +kernel

/-- An IPv4 address or IPv6 address that is none is accepted, and means any address. -/
theorem endpoint_address_counterexample : prefer lost .unspecified (chars "999.999.999.999:80") =
      some (0, { blank with type := .ipv4, tcp := 80, udp := 80 }) ∧
    prefer lost .unspecified (chars "[:::::]:80") = some (0, { blank with type := .ipv6, tcp := 80, udp := 80 }) := by
  rw [endpoint_meaning_partial _ _ _ (by decide) (by decide), endpoint_meaning_partial _ _ _ (by decide) (by decide)]
  decide +kernel

/-- The examples of the header. -/
example : grammar (chars "80") = some (.net .none (.number (chars "80"))) ∧
    grammar (chars ":80") = some (.net .none (.number (chars "80"))) ∧
    grammar (chars ":http") = some (.net .none (.service (chars "http"))) ∧
    grammar (chars "localhost") = some (.net (.name (chars "localhost")) .none) ∧
    grammar (chars "localhost:80") = some (.net (.fqdn (chars "localhost")) (.number (chars "80"))) ∧
    grammar (chars "diag.com") = some (.net (.fqdn (chars "diag.com")) .none) ∧
    grammar (chars "diag.com:http") = some (.net (.fqdn (chars "diag.com")) (.service (chars "http"))) ∧
    grammar (chars "172.217.1.206:80") = some (.net (.ipv4 (chars "172.217.1.206")) (.number (chars "80"))) ∧
    grammar (chars "[2607:f8b0:400f:805::200e]:http") = some (.net (.ipv6 (chars "2607:f8b0:400f:805::200e")) (.service (chars "http"))) ∧
    grammar (chars "/tmp/unix.sock") = some (.path (chars "/tmp/unix.sock")) ∧
    grammar (chars "./unix.sock") = some (.path (chars "./unix.sock")) ∧
    grammar (chars "run/unix.sock") = some (.path (chars "run/unix.sock")) ∧
    grammar (chars "[::]") = some (.net (.ipv6 (chars "::")) .none) ∧
    grammar (chars "") = some (.path []) ∧
    grammar (chars "80:80") = none ∧ grammar (chars "[::") = none ∧ grammar (chars "10.0/socket") = none ∧
    grammar (chars "a:b-c") = none := by
  decide +kernel

end Diminuto.Endpoint
