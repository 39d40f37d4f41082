import Verif.EndpointSpec

/-!
# Lemmas: the endpoint parser
-/

namespace Diminuto.Endpoint

/-- A list automaton. -/
def lst : State → Target → List Byte → List Byte → Option Phrase
  | .start, _, _, [] => some (.path [])
  | .start, t, s, c :: r =>
    if c = ch ' ' ∨ c = ch '\t' then lst .start t s r
    else if c = ch ':' then lst .colon t s r
    else if c = ch '[' then lst .ipv6 t [] r
    else if isDigit c then lst .digit t [c] r
    else if isLetter c then lst .letter t [c] r
    else if c = ch '/' then lst .path t [c] r
    else if c = ch '.' then lst .path t [c] r
    else lst .start t s r
  | .digit, _, s, [] => some (.net .none (.number s))
  | .digit, t, s, c :: r =>
    if c = ch '.' then lst .period t (s ++ [c]) r
    else if c = ch '-' then lst .letter t (s ++ [c]) r
    else if isDigit c then lst .digit t (s ++ [c]) r
    else if isLetter c then lst .letter t (s ++ [c]) r
    else if c = ch '/' then lst .path t (s ++ [c]) r
    else none
  | .period, _, s, [] => some (.net (.ipv4 s) .none)
  | .period, t, s, c :: r =>
    if c = ch '.' then lst .period t (s ++ [c]) r
    else if c = ch '-' then lst .fqdn t (s ++ [c]) r
    else if c = ch ':' then lst .colon (.ipv4 s) [] r
    else if isDigit c then lst .period t (s ++ [c]) r
    else if isLetter c then lst .letter t (s ++ [c]) r
    else none
  | .letter, _, s, [] => some (.net (.name s) .none)
  | .letter, t, s, c :: r =>
    if c = ch '.' then lst .fqdn t (s ++ [c]) r
    else if c = ch '-' then lst .fqdn t (s ++ [c]) r
    else if c = ch ':' then lst .colon (.fqdn s) [] r
    else if isDigit c then lst .letter t (s ++ [c]) r
    else if isLetter c then lst .letter t (s ++ [c]) r
    else if c = ch '/' then lst .path t (s ++ [c]) r
    else none
  | .fqdn, _, s, [] => some (.net (.fqdn s) .none)
  | .fqdn, t, s, c :: r =>
    if c = ch '-' then lst .fqdn t (s ++ [c]) r
    else if c = ch '.' then lst .fqdn t (s ++ [c]) r
    else if isDigit c then lst .fqdn t (s ++ [c]) r
    else if isLetter c then lst .fqdn t (s ++ [c]) r
    else if c = ch ':' then lst .colon (.fqdn s) [] r
    else if c = ch '/' then lst .path t (s ++ [c]) r
    else none
  | .ipv6, _, _, [] => none
  | .ipv6, t, s, c :: r =>
    if c = ch ']' then lst .next (.ipv6 s) [] r
    else if c = ch ':' then lst .ipv6 t (s ++ [c]) r
    else if c = ch '.' then lst .ipv6 t (s ++ [c]) r
    else if isDigit c then lst .ipv6 t (s ++ [c]) r
    else if isHex c then lst .ipv6 t (s ++ [c]) r
    else none
  | .next, t, _, [] => some (.net t .none)
  | .next, t, s, c :: r => if c = ch ':' then lst .colon t s r else none
  | .colon, t, _, [] => some (.net t .none)
  | .colon, t, _, c :: r =>
    if isDigit c then lst .port t [c] r
    else if isLetter c then lst .service t [c] r
    else none
  | .port, t, s, [] => some (.net t (.number s))
  | .port, t, s, c :: r => if isDigit c then lst .port t (s ++ [c]) r else none
  | .service, t, s, [] => some (.net t (.service s))
  | .service, t, s, c :: r =>
    if isDigit c then lst .service t (s ++ [c]) r
    else if isLetter c then lst .service t (s ++ [c]) r
    else none
  | .path, _, s, [] => some (.path s)
  | .path, t, s, c :: r => lst .path t (s ++ [c]) r
  | .stop, _, _, _ => none

theorem lst_port (t : Target) : ∀ r s, lst .port t s r = if r.all isDigit then some (.net t (.number (s ++ r))) else none := by
  intro r
  induction r with
  | nil => intro s; simp [lst]
  | cons c r ih =>
    intro s
    simp only [lst, List.all_cons]
    by_cases h : isDigit c = true
    · simp [h, ih]
    · simp [h]

theorem lst_service (t : Target) : ∀ r s, lst .service t s r = if r.all alnum then some (.net t (.service (s ++ r))) else none := by
  intro r
  induction r with
  | nil => intro s; simp [lst]
  | cons c r ih =>
    intro s
    simp only [lst, List.all_cons, alnum]
    by_cases h : isDigit c = true
    · simp [h, ih]
    · by_cases h' : isLetter c = true
      · simp [h, h', ih]
      · simp [h, h']

theorem lst_path (t : Target) : ∀ r s, lst .path t s r = some (.path (s ++ r)) := by
  intro r
  induction r with
  | nil => intro s; simp [lst]
  | cons c r ih => intro s; simp [lst, ih]

theorem lst_colon (t : Target) (s r : List Byte) : lst .colon t s r = (portOf r).map (.net t) := by
  cases r with
  | nil => simp [lst, portOf]
  | cons c r =>
    simp only [lst, portOf, lst_port, lst_service, List.all_cons]
    by_cases h : isDigit c = true
    · simp only [h, if_true, Bool.true_and]
      split <;> simp
    · by_cases h' : isLetter c = true
      · simp only [h, h', if_true, Bool.true_and, alnum, Bool.or_true]
        simp only [Bool.false_eq_true, if_false]
        change (if (r.all alnum) = true then _ else _) = Option.map _ (if (r.all alnum) = true then _ else _)
        split <;> simp
      · simp [h, h']

theorem lst_ipv6 (t : Target) : ∀ r s, lst .ipv6 t s r =
    match r.dropWhile addressChar with
    | [] => none
    | c :: u =>
      if c = ch ']' then
        match u with
        | [] => some (.net (.ipv6 (s ++ r.takeWhile addressChar)) .none)
        | c :: v => if c = ch ':' then (portOf v).map (.net (.ipv6 (s ++ r.takeWhile addressChar))) else none
      else none := by
  intro r
  induction r with
  | nil => intro s; simp [lst]
  | cons c r ih =>
    intro s
    simp only [lst]
    by_cases h1 : c = ch ']'
    · have : addressChar c = false := by subst h1; decide
      simp only [h1, if_true]
      rw [h1] at this
      rw [List.dropWhile_cons_of_neg (by simp [this]), List.takeWhile_cons_of_neg (by simp [this])]
      simp only [if_true, List.append_nil]
      cases r with
      | nil => simp [lst]
      | cons d v => simp [lst, lst_colon]
    · simp only [h1, if_false]
      by_cases h2 : addressChar c = true
      · rw [List.dropWhile_cons_of_pos h2, List.takeWhile_cons_of_pos h2]
        have e : s ++ c :: r.takeWhile addressChar = (s ++ [c]) ++ r.takeWhile addressChar := by simp
        rw [e, ← ih]
        simp only [addressChar, Bool.or_eq_true, decide_eq_true_eq] at h2
        split
        · rfl
        · split
          · rfl
          · split
            · rfl
            · split
              · rfl
              · rename_i a b c' d
                simp_all
      · rw [List.dropWhile_cons_of_neg h2]
        simp only [h1, if_false]
        simp only [addressChar, Bool.or_eq_true, decide_eq_true_eq, not_or] at h2
        rw [if_neg h2.1.2, if_neg h2.2, if_neg h2.1.1.1, if_neg h2.1.1.2]

/-- The kind of what follows, in a state. -/
def kindFrom (st : State) (h : List Byte) : HostKind :=
  match st with
  | .fqdn => .fqdn
  | .letter => if h.all alnum then .name else .fqdn
  | .period => if h.all digitDot then .ipv4 else if (h.dropWhile digitDot).all alnum then .name else .fqdn
  | _ => hostKind h

theorem hostChar_cases {c : Byte} (h : hostChar c = true) : isDigit c = true ∨ isLetter c = true ∨ c = ch '.' ∨ c = ch '-' := by
  simp only [hostChar, alnum, Bool.or_eq_true, decide_eq_true_eq] at h
  rcases h with ((h | h) | h) | h
  · exact .inl h
  · exact .inr (.inl h)
  · exact .inr (.inr (.inl h))
  · exact .inr (.inr (.inr h))

theorem not_hostChar {c : Byte} (h : ¬ hostChar c = true) : isDigit c = false ∧ isLetter c = false ∧ c ≠ ch '.' ∧ c ≠ ch '-' := by
  simp only [hostChar, alnum, Bool.or_eq_true, decide_eq_true_eq, not_or] at h
  exact ⟨by simpa using h.1.1.1, by simpa using h.1.1.2, h.1.2, h.2⟩

theorem digit_facts {c : Byte} (h : isDigit c = true) : c ≠ ch '.' ∧ c ≠ ch '-' ∧ c ≠ ch ':' ∧ c ≠ ch '/' ∧ c ≠ ch ' ' ∧ c ≠ ch '\t' ∧ c ≠ ch '[' ∧ isLetter c = false := by
  revert c; decide +kernel

theorem letter_facts {c : Byte} (h : isLetter c = true) : c ≠ ch '.' ∧ c ≠ ch '-' ∧ c ≠ ch ':' ∧ c ≠ ch '/' ∧ c ≠ ch ' ' ∧ c ≠ ch '\t' ∧ c ≠ ch '[' ∧ isDigit c = false := by
  revert c; decide +kernel

/-- The end of the host, in any of the states. -/
theorem lst_host_end {st : State} (hst : st = .digit ∨ st = .period ∨ st = .letter ∨ st = .fqdn) (s d : List Byte)
    (hd : ∀ c u, d = c :: u → hostChar c = false) : lst st .none s d = withHost (kindFrom st []) s d := by
  cases d with
  | nil => rcases hst with rfl | rfl | rfl | rfl <;> rfl
  | cons c u =>
    have hn := not_hostChar (c := c) (by simp [hd c u rfl])
    rcases hst with rfl | rfl | rfl | rfl
    · simp only [lst, hn, if_false, lst_path, withHost, Bool.false_eq_true]
      have e : kindFrom .digit [] = .digits := rfl
      rw [e]
      by_cases h1 : c = ch ':'
      · simp [h1, show ch ':' ≠ ch '/' by decide]
      · simp [h1]
    · simp only [lst, hn, if_false, withHost, Bool.false_eq_true, lst_colon]
      have e : kindFrom .period [] = .ipv4 := rfl
      rw [e]
      simp
    · simp only [lst, hn, if_false, lst_path, withHost, Bool.false_eq_true, lst_colon]
      have e : kindFrom .letter [] = .name := rfl
      rw [e]
      simp
    · simp only [lst, hn, if_false, lst_path, withHost, Bool.false_eq_true, lst_colon]
      have e : kindFrom .fqdn [] = .fqdn := rfl
      rw [e]
      simp

theorem lst_fqdn (d : List Byte) (hd : ∀ c u, d = c :: u → hostChar c = false) : ∀ h s, h.all hostChar = true →
    lst .fqdn .none s (h ++ d) = withHost .fqdn (s ++ h) d := by
  intro h
  induction h with
  | nil => intro s _; simp [lst_host_end (st := .fqdn) (by simp) s d hd, kindFrom]
  | cons c h ih =>
    intro s ha
    simp only [List.all_cons, Bool.and_eq_true] at ha
    have e : lst .fqdn .none s (c :: h ++ d) = lst .fqdn .none (s ++ [c]) (h ++ d) := by
      simp only [lst, List.cons_append]
      rcases hostChar_cases ha.1 with h | h | h | h
      · simp [h, digit_facts h]
      · simp [h, letter_facts h]
      · simp [h]
      · simp [h]
    rw [e, ih _ ha.2]
    simp

theorem lst_letter (d : List Byte) (hd : ∀ c u, d = c :: u → hostChar c = false) : ∀ h s, h.all hostChar = true →
    lst .letter .none s (h ++ d) = withHost (kindFrom .letter h) (s ++ h) d := by
  intro h
  induction h with
  | nil => intro s _; simp [lst_host_end (st := .letter) (by simp) s d hd]
  | cons c h ih =>
    intro s ha
    simp only [List.all_cons, Bool.and_eq_true] at ha
    by_cases hc : alnum c = true
    · have e : lst .letter .none s (c :: h ++ d) = lst .letter .none (s ++ [c]) (h ++ d) := by
        simp only [lst, List.cons_append]
        simp only [alnum, Bool.or_eq_true] at hc
        rcases hc with h | h
        · simp [h, digit_facts h]
        · simp [h, letter_facts h]
      rw [e, ih _ ha.2]
      simp [kindFrom, hc]
    · have e : lst .letter .none s (c :: h ++ d) = lst .fqdn .none (s ++ [c]) (h ++ d) := by
        simp only [lst, List.cons_append]
        rcases hostChar_cases ha.1 with h | h | h | h
        · simp [alnum, h] at hc
        · simp [alnum, h] at hc
        · simp [h]
        · simp [h]
      rw [e, lst_fqdn d hd _ _ ha.2]
      simp [kindFrom, hc]

theorem lst_period (d : List Byte) (hd : ∀ c u, d = c :: u → hostChar c = false) : ∀ h s, h.all hostChar = true →
    lst .period .none s (h ++ d) = withHost (kindFrom .period h) (s ++ h) d := by
  intro h
  induction h with
  | nil => intro s _; simp [lst_host_end (st := .period) (by simp) s d hd]
  | cons c h ih =>
    intro s ha
    simp only [List.all_cons, Bool.and_eq_true] at ha
    by_cases hc : digitDot c = true
    · have e : lst .period .none s (c :: h ++ d) = lst .period .none (s ++ [c]) (h ++ d) := by
        simp only [lst, List.cons_append]
        simp only [digitDot, Bool.or_eq_true, decide_eq_true_eq] at hc
        rcases hc with h | h
        · simp [h, digit_facts h]
        · simp [h]
      rw [e, ih _ ha.2]
      simp [kindFrom, hc]
    · rcases hostChar_cases ha.1 with h1 | h1 | h1 | h1
      · simp [digitDot, h1] at hc
      · have e : lst .period .none s (c :: h ++ d) = lst .letter .none (s ++ [c]) (h ++ d) := by
          simp [lst, h1, letter_facts h1]
        rw [e, lst_letter d hd _ _ ha.2]
        simp [kindFrom, hc, alnum, h1]
      · simp [digitDot, h1] at hc
      · have e : lst .period .none s (c :: h ++ d) = lst .fqdn .none (s ++ [c]) (h ++ d) := by
          simp [lst, h1, show ch '-' ≠ ch '.' by decide]
        rw [e, lst_fqdn d hd _ _ ha.2]
        have : alnum c = false := by rw [h1]; decide
        simp [kindFrom, hc, this]

theorem hostKind_digit {c : Byte} (hc : isDigit c = true) (h : List Byte) : hostKind (c :: h) = hostKind h := by
  have : digitDot c = true := by simp [digitDot, hc]
  simp [hostKind, dashed, hc, this]

theorem lst_digit (d : List Byte) (hd : ∀ c u, d = c :: u → hostChar c = false) : ∀ h s, h.all hostChar = true →
    lst .digit .none s (h ++ d) = withHost (hostKind h) (s ++ h) d := by
  intro h
  induction h with
  | nil => intro s _; rw [List.nil_append, lst_host_end (st := .digit) (by simp) s d hd, List.append_nil]; rfl
  | cons c h ih =>
    intro s ha
    simp only [List.all_cons, Bool.and_eq_true] at ha
    by_cases hc : isDigit c = true
    · have e : lst .digit .none s (c :: h ++ d) = lst .digit .none (s ++ [c]) (h ++ d) := by
        simp [lst, hc, digit_facts hc]
      rw [e, ih _ ha.2, hostKind_digit hc]
      simp
    · rcases hostChar_cases ha.1 with h1 | h1 | h1 | h1
      · exact absurd h1 hc
      · have e : lst .digit .none s (c :: h ++ d) = lst .letter .none (s ++ [c]) (h ++ d) := by
          simp [lst, h1, letter_facts h1]
        rw [e, lst_letter d hd _ _ ha.2]
        have h2 : digitDot c = false := by simp [digitDot, letter_facts h1]
        simp [kindFrom, hostKind, dashed, hc, alnum, h1, h2, letter_facts h1]
      · have e : lst .digit .none s (c :: h ++ d) = lst .period .none (s ++ [c]) (h ++ d) := by
          simp [lst, h1]
        rw [e, lst_period d hd _ _ ha.2]
        have h2 : digitDot c = true := by simp [digitDot, h1]
        have h3 : c ≠ ch '-' := by rw [h1]; decide
        simp [kindFrom, hostKind, dashed, hc, h2, h3]
      · have e : lst .digit .none s (c :: h ++ d) = lst .letter .none (s ++ [c]) (h ++ d) := by
          simp [lst, h1, show ch '-' ≠ ch '.' by decide]
        rw [e, lst_letter d hd _ _ ha.2]
        have h2 : digitDot c = false := by rw [h1]; decide
        have h3 : alnum c = false := by rw [h1]; decide
        have h4 : isDigit c = false := by rw [h1]; decide
        have h5 : dashed (c :: h) = h.all alnum := by
          unfold dashed
          rw [List.dropWhile_cons_of_neg (by simp [h4])]
          simp [h1]
        unfold kindFrom hostKind
        rw [List.dropWhile_cons_of_neg (by simp [h2])]
        simp only [List.all_cons, h2, h3, h4, h5, Bool.false_and, Bool.false_or, Bool.false_eq_true, if_false]
        simp

theorem hostKind_letter {c : Byte} (hc : isLetter c = true) (h : List Byte) : hostKind (c :: h) = kindFrom .letter h := by
  have h2 : digitDot c = false := by simp [digitDot, letter_facts hc]
  simp [kindFrom, hostKind, dashed, letter_facts hc, alnum, hc, h2]

theorem lst_start : ∀ r, lst .start .none [] r = grammar r := by
  intro r
  induction r with
  | nil => rfl
  | cons c r ih =>
    by_cases hs : starter c = true
    · have hd : (c :: r).dropWhile (fun c => !starter c) = c :: r := List.dropWhile_cons_of_neg (by simp [hs])
      have hsplit : r = r.takeWhile hostChar ++ r.dropWhile hostChar := (List.takeWhile_append_dropWhile).symm
      have hd' : ∀ c u, r.dropWhile hostChar = c :: u → hostChar c = false := by
        intro c u h
        have := List.head?_dropWhile_not (p := hostChar) (l := r)
        rw [h] at this
        simpa using this
      have ha : (r.takeWhile hostChar).all hostChar = true := by simp
      unfold grammar
      rw [hd]
      simp only [starter, alnum, Bool.or_eq_true, decide_eq_true_eq] at hs
      rcases hs with (((((h | h) | h) | h) | h) | h)
      · have hh : hostChar c = true := by simp [hostChar, alnum, h]
        simp only [lst, h, digit_facts h, if_false, or_self, if_true]
        rw [List.takeWhile_cons_of_pos hh, List.dropWhile_cons_of_pos hh, hostKind_digit h]
        conv => lhs; rw [hsplit]
        rw [lst_digit _ hd' _ _ ha]
        rfl
      · have hh : hostChar c = true := by simp [hostChar, alnum, h]
        simp only [lst, h, letter_facts h, if_false, or_self, if_true, Bool.false_eq_true]
        rw [List.takeWhile_cons_of_pos hh, List.dropWhile_cons_of_pos hh, hostKind_letter h]
        conv => lhs; rw [hsplit]
        rw [lst_letter _ hd' _ _ ha]
        rfl
      · subst h
        simp [lst, lst_colon, show ch ':' ≠ ch ' ' by decide, show ch ':' ≠ ch '\t' by decide, show ch ':' ≠ ch '/' by decide,
          show ch ':' ≠ ch '.' by decide]
      · subst h
        simp only [lst, show ch '[' ≠ ch ' ' by decide, show ch '[' ≠ ch '\t' by decide, show ch '[' ≠ ch '/' by decide,
          show ch '[' ≠ ch '.' by decide, show ch '[' ≠ ch ':' by decide, or_self, if_false, if_true, lst_ipv6, bracketed, List.nil_append]
        rfl
      · subst h
        simp [lst, lst_path, show ch '/' ≠ ch ' ' by decide, show ch '/' ≠ ch '\t' by decide, show ch '/' ≠ ch ':' by decide,
          show ch '/' ≠ ch '[' by decide, show isDigit (ch '/') = false by decide, show isLetter (ch '/') = false by decide]
      · subst h
        simp [lst, lst_path, show ch '.' ≠ ch ' ' by decide, show ch '.' ≠ ch '\t' by decide, show ch '.' ≠ ch ':' by decide,
          show ch '.' ≠ ch '[' by decide, show isDigit (ch '.') = false by decide, show isLetter (ch '.') = false by decide,
          show ch '.' ≠ ch '/' by decide]
    · have e : grammar (c :: r) = grammar r := by
        unfold grammar
        rw [List.dropWhile_cons_of_pos (by simp [hs])]
      rw [e, ← ih]
      simp only [starter, alnum, Bool.or_eq_true, decide_eq_true_eq, not_or] at hs
      obtain ⟨⟨⟨⟨⟨h1, h2⟩, h3⟩, h4⟩, h5⟩, h6⟩ := hs
      rw [lst]
      rw [if_neg h3, if_neg h4, if_neg h1, if_neg h2, if_neg h5, if_neg h6]
      split <;> rfl

theorem cstr_eq {b s t : List Byte} {k : Nat} (h : b.drop k = s ++ 0#8 :: t) (hs : 0#8 ∉ s) : cstr b k = some s := by
  unfold cstr
  rw [h, if_pos (by simp), List.takeWhile_append_of_pos]
  · simp
  · intro a ha
    simp only [ne_eq, decide_not, Bool.not_eq_eq_eq_not, Bool.not_true, decide_eq_false_iff_not]
    rintro rfl
    exact hs ha

/-- In these states there is no host yet. -/
def early : State → Bool
  | .next | .colon | .port | .service => false
  | _ => true

/-- In these states the mark is the beginning of a string. -/
def marked : State → Bool
  | .start | .next | .colon | .stop => false
  | _ => true

/-- The host that has been found. -/
def Found (m : Machine) : Target → Prop
  | .none => m.fqdn = none ∧ m.ipv4 = none ∧ m.ipv6 = none ∧ m.isIpv4 = false ∧ m.isIpv6 = false
  | .name _ => False
  | .fqdn h => pointer m.buffer m.fqdn = some (some h) ∧ m.ipv4 = none ∧ m.ipv6 = none ∧ m.isIpv4 = false ∧ m.isIpv6 = false
  | .ipv4 h => m.fqdn = none ∧ pointer m.buffer m.ipv4 = some (some h) ∧ m.ipv6 = none ∧ m.isIpv4 = true ∧ m.isIpv6 = false
  | .ipv6 h => m.fqdn = none ∧ m.ipv4 = none ∧ pointer m.buffer m.ipv6 = some (some h) ∧ m.isIpv4 = false ∧ m.isIpv6 = true

/-- The parser is in a state of the automaton. -/
structure R (m : Machine) (st : State) (T : Target) (seg rest : List Byte) : Prop where
  state : m.state = st
  rem : ∃ t, m.buffer.drop m.here = rest ++ 0#8 :: t
  nz : 0#8 ∉ rest
  rc : m.rc = -1
  others : m.name = none ∧ m.port = none ∧ m.service = none ∧ m.path = none
  found : Found m T
  fresh : early st = true → T = .none
  mark : marked st = true → ∃ k, m.mark = some k ∧ m.here = k + seg.length ∧ m.buffer.drop k = seg ++ m.buffer.drop m.here ∧ 0#8 ∉ seg

/-- What the parser has found. -/
structure Out (m : Machine) (o : Option Phrase) : Prop where
  ok : ∀ p, o = some p → m.rc = 0 ∧
    match p with
    | .path p => m.name = none ∧ m.port = none ∧ m.service = none ∧ pointer m.buffer m.path = some (some p) ∧ Found m .none
    | .net t p => m.path = none ∧
      (match p with
        | .none => m.port = none ∧ m.service = none
        | .number p => pointer m.buffer m.port = some (some p) ∧ m.service = none
        | .service p => m.port = none ∧ pointer m.buffer m.service = some (some p)) ∧
      match t with
      | .name h => pointer m.buffer m.name = some (some h) ∧ Found m .none
      | t => m.name = none ∧ Found m t
  bad : o = none → m.rc = -1 ∧ m.name = none ∧ m.port = none ∧ m.service = none ∧ m.path = none ∧ ∃ t, Found m t

theorem drop_succ {l r : List Byte} {n : Nat} {c : Byte} (h : l.drop n = c :: r) : l.drop (n + 1) = r := by
  rw [← List.drop_drop, h]
  rfl

theorem R.read {m : Machine} {st : State} {T : Target} {seg rest : List Byte} {c : Byte} (h : R m st T seg (c :: rest)) :
    step m = some (advance m c) := by
  obtain ⟨t, ht⟩ := h.rem
  have : m.buffer[m.here]? = some c := by
    have := congrArg (·[0]?) ht
    simpa using this
  rw [step, this, Option.map_some]

theorem R.read_end {m : Machine} {st : State} {T : Target} {seg : List Byte} (h : R m st T seg []) :
    step m = some (advance m 0#8) := by
  obtain ⟨t, ht⟩ := h.rem
  have : m.buffer[m.here]? = some 0#8 := by
    have := congrArg (·[0]?) ht
    simpa using this
  rw [step, this, Option.map_some]

theorem R.tail {m : Machine} {st : State} {T : Target} {seg rest : List Byte} {c : Byte} (h : R m st T seg (c :: rest)) :
    ∃ t, m.buffer.drop (m.here + 1) = rest ++ 0#8 :: t := by
  obtain ⟨t, ht⟩ := h.rem
  refine ⟨t, ?_⟩
  exact drop_succ ht

theorem R.nz1 {m : Machine} {st : State} {T : Target} {seg rest : List Byte} {c : Byte} (h : R m st T seg (c :: rest)) :
    0#8 ≠ c ∧ 0#8 ∉ rest := by
  have := h.nz
  simp only [List.mem_cons, not_or] at this
  exact this

/-- The next character belongs to the same string. -/
theorem R.more {m : Machine} {st st' : State} {T : Target} {seg rest : List Byte} {c : Byte} (h : R m st T seg (c :: rest))
    (he : early st' = true → early st = true) (hm : marked st' = true → marked st = true) :
    R { m with here := m.here + 1, state := st' } st' T (seg ++ [c]) rest := by
  refine ⟨rfl, h.tail, h.nz1.2, h.rc, h.others, ?_, fun e => h.fresh (he e), ?_⟩
  · have := h.found
    cases T <;> exact this
  · intro hs
    obtain ⟨k, k1, k2, k3, k4⟩ := h.mark (hm hs)
    refine ⟨k, k1, by simp only [List.length_append, List.length_singleton]; omega, ?_, ?_⟩
    · obtain ⟨t, ht⟩ := h.rem
      have e : m.buffer.drop m.here = c :: m.buffer.drop (m.here + 1) := by
        rw [drop_succ ht]
        exact ht
      rw [k3, e]
      simp
    · simp only [List.mem_append, List.mem_singleton, not_or]
      exact ⟨k4, h.nz1.1⟩

/-- The next character begins a string. -/
theorem R.first {m : Machine} {st st' : State} {T : Target} {seg rest : List Byte} {c : Byte} (h : R m st T seg (c :: rest))
    (he : early st' = true → early st = true) :
    R { m with mark := some m.here, here := m.here + 1, state := st' } st' T [c] rest := by
  refine ⟨rfl, h.tail, h.nz1.2, h.rc, h.others, ?_, fun e => h.fresh (he e), ?_⟩
  · have := h.found
    cases T <;> exact this
  · intro hs
    refine ⟨m.here, rfl, rfl, ?_, ?_⟩
    · obtain ⟨t, ht⟩ := h.rem
      change m.buffer.drop m.here = [c] ++ m.buffer.drop (m.here + 1)
      rw [drop_succ ht]
      exact ht
    · simp only [List.mem_singleton]
      exact h.nz1.1

/-- The next character is before a string. -/
theorem R.before {m : Machine} {st st' : State} {T : Target} {seg rest : List Byte} {c : Byte} (h : R m st T seg (c :: rest))
    (he : early st' = true → early st = true) :
    R { m with here := m.here + 1, mark := some (m.here + 1), state := st' } st' T [] rest := by
  refine ⟨rfl, h.tail, h.nz1.2, h.rc, h.others, ?_, fun e => h.fresh (he e), ?_⟩
  · have := h.found
    cases T <;> exact this
  · intro hs
    exact ⟨m.here + 1, rfl, rfl, rfl, by simp⟩

/-- The next character does not matter. -/
theorem R.skip {m : Machine} {st st' : State} {T : Target} {seg rest : List Byte} {c : Byte} (h : R m st T seg (c :: rest))
    (he : early st' = true → early st = true) (hm : marked st' = false) (k : Option Nat) (seg' : List Byte) :
    R { m with here := m.here + 1, mark := k, state := st' } st' T seg' rest := by
  refine ⟨rfl, h.tail, h.nz1.2, h.rc, h.others, ?_, fun e => h.fresh (he e), ?_⟩
  · have := h.found
    cases T <;> exact this
  · intro hs
    simp [hm] at hs

/-- The next character becomes the end of the string. -/
theorem R.cut {m : Machine} {st : State} {T : Target} {seg rest : List Byte} {c : Byte} (h : R m st T seg (c :: rest))
    (hm : marked st = true) : pointer (m.buffer.set m.here 0#8) m.mark = some (some seg) ∧
      ∃ t, (m.buffer.set m.here 0#8).drop (m.here + 1) = rest ++ 0#8 :: t := by
  obtain ⟨k, k1, k2, k3, k4⟩ := h.mark hm
  obtain ⟨t, ht⟩ := h.rem
  constructor
  · rw [k1]
    have : (m.buffer.set m.here 0#8).drop k = seg ++ 0#8 :: (rest ++ 0#8 :: t) := by
      rw [List.drop_set, if_neg (by omega), k3, ht, k2]
      simp
    simp [pointer, cstr_eq this k4]
  · obtain ⟨u, hu⟩ := h.tail
    refine ⟨u, ?_⟩
    rw [List.drop_set, if_pos (by omega), hu]

/-- A host is found. -/
theorem R.cutFqdn {m : Machine} {st : State} {T : Target} {seg rest : List Byte} {c : Byte} (h : R m st T seg (c :: rest))
    (hm : marked st = true) (he : early st = true) :
    R { m with fqdn := m.mark, buffer := m.buffer.set m.here 0#8, here := m.here + 1, state := .colon } .colon (.fqdn seg) [] rest := by
  obtain ⟨c1, c2⟩ := h.cut hm
  have hf := h.found
  rw [h.fresh he] at hf
  exact ⟨rfl, c2, h.nz1.2, h.rc, h.others, ⟨c1, hf.2⟩, fun e => by simp [early] at e, fun e => by simp [marked] at e⟩

/-- An IPv4 address is found. -/
theorem R.cut4 {m : Machine} {st : State} {T : Target} {seg rest : List Byte} {c : Byte} (h : R m st T seg (c :: rest))
    (hm : marked st = true) (he : early st = true) :
    R { m with ipv4 := m.mark, isIpv4 := true, buffer := m.buffer.set m.here 0#8, here := m.here + 1, state := .colon } .colon (.ipv4 seg) []
      rest := by
  obtain ⟨c1, c2⟩ := h.cut hm
  have hf := h.found
  rw [h.fresh he] at hf
  exact ⟨rfl, c2, h.nz1.2, h.rc, h.others, ⟨hf.1, c1, hf.2.2.1, rfl, hf.2.2.2.2⟩, fun e => by simp [early] at e, fun e => by simp [marked] at e⟩

/-- An IPv6 address is found. -/
theorem R.cut6 {m : Machine} {st : State} {T : Target} {seg rest : List Byte} {c : Byte} (h : R m st T seg (c :: rest))
    (hm : marked st = true) (he : early st = true) :
    R { m with buffer := m.buffer.set m.here 0#8, here := m.here + 1, ipv6 := m.mark, isIpv6 := true, state := .next } .next (.ipv6 seg) []
      rest := by
  obtain ⟨c1, c2⟩ := h.cut hm
  have hf := h.found
  rw [h.fresh he] at hf
  exact ⟨rfl, c2, h.nz1.2, h.rc, h.others, ⟨hf.1, hf.2.1, c1, hf.2.2.2.1, rfl⟩, fun e => by simp [early] at e, fun e => by simp [marked] at e⟩

theorem R.bad {m m' : Machine} {st : State} {T : Target} {seg rest : List Byte} (h : R m st T seg rest)
    (e : m' = { m with state := .stop }) : Out m' none := by
  subst e
  refine ⟨fun p hp => by simp at hp, fun _ => ⟨h.rc, h.others.1, h.others.2.1, h.others.2.2.1, h.others.2.2.2, T, ?_⟩⟩
  have := h.found
  cases T <;> exact this

/-- The end of the string. -/
theorem R.whole {m : Machine} {st : State} {T : Target} {seg : List Byte} (h : R m st T seg [])
    (hm : marked st = true) : pointer m.buffer m.mark = some (some seg) := by
  obtain ⟨k, k1, k2, k3, k4⟩ := h.mark hm
  obtain ⟨t, ht⟩ := h.rem
  rw [ht] at k3
  simp [pointer, k1, cstr_eq k3 k4]

theorem go {n : Nat} {m m1 : Machine} {o : Option Phrase} (h : step m = some m1) (hs : m1.state ≠ .stop)
    (ho : ∃ m', loop n m1 = some m' ∧ Out m' o) : ∃ m', loop (n + 1) m = some m' ∧ Out m' o := by
  simp only [loop, h, Option.bind_some, if_pos hs]
  exact ho

theorem halt {n : Nat} {m m1 : Machine} {o : Option Phrase} (h : step m = some m1) (hs : m1.state = .stop)
    (ho : Out m1 o) : ∃ m', loop (n + 1) m = some m' ∧ Out m' o := by
  simp only [loop, h, Option.bind_some, hs, ne_eq, not_true_eq_false, if_false]
  exact ⟨_, rfl, ho⟩

theorem refine_nil {m : Machine} {st : State} {T : Target} {seg : List Byte} {n : Nat} (h : R m st T seg []) :
    ∃ m', loop (n + 1) m = some m' ∧ Out m' (lst st T seg []) := by
  have hst := h.state
  have hf := h.found
  have hfr := h.fresh
  have ho := h.others
  have hd := h.read_end
  cases st
  · have e : advance m 0#8 = { m with mark := some m.here, path := some m.here, state := .stop, rc := 0 } := by
      unfold advance; rw [hst]; rfl
    rw [e] at hd
    refine halt hd rfl ⟨fun p hp => ?_, fun hn => by simp [lst] at hn⟩
    simp only [lst, Option.some.injEq] at hp
    subst hp
    obtain ⟨t, ht⟩ := h.rem
    rw [hfr rfl] at hf
    exact ⟨rfl, ho.1, ho.2.1, ho.2.2.1, by simp [pointer, cstr_eq (s := []) ht (by simp)], hf⟩
  · have e : advance m 0#8 = { m with port := m.mark, state := .stop, rc := 0 } := by
      unfold advance; rw [hst]; rfl
    rw [e] at hd
    refine halt hd rfl ⟨fun p hp => ?_, fun hn => by simp [lst] at hn⟩
    simp only [lst, Option.some.injEq] at hp
    subst hp
    rw [hfr rfl] at hf
    exact ⟨rfl, ho.2.2.2, ⟨h.whole rfl, ho.2.2.1⟩, ho.1, hf⟩
  · have e : advance m 0#8 = { m with ipv4 := m.mark, isIpv4 := true, state := .stop, rc := 0 } := by
      unfold advance; rw [hst]; rfl
    rw [e] at hd
    refine halt hd rfl ⟨fun p hp => ?_, fun hn => by simp [lst] at hn⟩
    simp only [lst, Option.some.injEq] at hp
    subst hp
    rw [hfr rfl] at hf
    exact ⟨rfl, ho.2.2.2, ⟨ho.2.1, ho.2.2.1⟩, ho.1, hf.1, h.whole rfl, hf.2.2.1, rfl, hf.2.2.2.2⟩
  · have e : advance m 0#8 = { m with name := m.mark, state := .stop, rc := 0 } := by
      unfold advance; rw [hst]; rfl
    rw [e] at hd
    refine halt hd rfl ⟨fun p hp => ?_, fun hn => by simp [lst] at hn⟩
    simp only [lst, Option.some.injEq] at hp
    subst hp
    rw [hfr rfl] at hf
    exact ⟨rfl, ho.2.2.2, ⟨ho.2.1, ho.2.2.1⟩, h.whole rfl, hf⟩
  · have e : advance m 0#8 = { m with state := .stop, rc := 0 } := by
      unfold advance; rw [hst]; rfl
    rw [e] at hd
    refine halt hd rfl ⟨fun p hp => ?_, fun hn => by simp [lst] at hn⟩
    simp only [lst, Option.some.injEq] at hp
    subst hp
    refine ⟨rfl, ho.2.2.2, ⟨ho.2.1, ho.2.2.1⟩, ?_⟩
    cases T
    · exact ⟨ho.1, hf⟩
    · exact hf.elim
    all_goals exact ⟨ho.1, hf⟩
  · have e : advance m 0#8 = { m with state := .stop } := by
      unfold advance; rw [hst]; rfl
    rw [e] at hd
    exact halt hd rfl (h.bad rfl)
  · have e : advance m 0#8 = { m with port := m.mark, state := .stop, rc := 0 } := by
      unfold advance; rw [hst]; rfl
    rw [e] at hd
    refine halt hd rfl ⟨fun p hp => ?_, fun hn => by simp [lst] at hn⟩
    simp only [lst, Option.some.injEq] at hp
    subst hp
    refine ⟨rfl, ho.2.2.2, ⟨h.whole rfl, ho.2.2.1⟩, ?_⟩
    cases T
    · exact ⟨ho.1, hf⟩
    · exact hf.elim
    all_goals exact ⟨ho.1, hf⟩
  · have e : advance m 0#8 = { m with fqdn := m.mark, state := .stop, rc := 0 } := by
      unfold advance; rw [hst]; rfl
    rw [e] at hd
    refine halt hd rfl ⟨fun p hp => ?_, fun hn => by simp [lst] at hn⟩
    simp only [lst, Option.some.injEq] at hp
    subst hp
    rw [hfr rfl] at hf
    exact ⟨rfl, ho.2.2.2, ⟨ho.2.1, ho.2.2.1⟩, ho.1, h.whole rfl, hf.2⟩
  · have e : advance m 0#8 = { m with service := m.mark, state := .stop, rc := 0 } := by
      unfold advance; rw [hst]; rfl
    rw [e] at hd
    refine halt hd rfl ⟨fun p hp => ?_, fun hn => by simp [lst] at hn⟩
    simp only [lst, Option.some.injEq] at hp
    subst hp
    refine ⟨rfl, ho.2.2.2, ⟨ho.2.1, h.whole rfl⟩, ?_⟩
    cases T
    · exact ⟨ho.1, hf⟩
    · exact hf.elim
    all_goals exact ⟨ho.1, hf⟩
  · have e : advance m 0#8 = { m with state := .stop, rc := 0 } := by
      unfold advance; rw [hst]; rfl
    rw [e] at hd
    refine halt hd rfl ⟨fun p hp => ?_, fun hn => by simp [lst] at hn⟩
    simp only [lst, Option.some.injEq] at hp
    subst hp
    refine ⟨rfl, ho.2.2.2, ⟨ho.2.1, ho.2.2.1⟩, ?_⟩
    cases T
    · exact ⟨ho.1, hf⟩
    · exact hf.elim
    all_goals exact ⟨ho.1, hf⟩
  · have e : advance m 0#8 = { m with path := m.mark, state := .stop, rc := 0 } := by
      unfold advance; rw [hst]; rfl
    rw [e] at hd
    refine halt hd rfl ⟨fun p hp => ?_, fun hn => by simp [lst] at hn⟩
    simp only [lst, Option.some.injEq] at hp
    subst hp
    rw [hfr rfl] at hf
    exact ⟨rfl, ho.1, ho.2.1, ho.2.2.1, h.whole rfl, hf⟩
  · have e : advance m 0#8 = { m with state := .stop } := by
      unfold advance; rw [hst]
    rw [e] at hd
    exact halt hd rfl (h.bad rfl)

theorem refine_lst : ∀ (rest : List Byte) (m : Machine) (st : State) (T : Target) (seg : List Byte) (n : Nat), R m st T seg rest →
    rest.length < n → ∃ m', loop n m = some m' ∧ Out m' (lst st T seg rest) := by
  intro rest
  induction rest with
  | nil =>
    intro m st T seg n h hn
    obtain ⟨n, rfl⟩ : ∃ k, n = k + 1 := ⟨n - 1, by simp only [List.length_nil] at hn; omega⟩
    exact refine_nil h
  | cons c rest ih =>
    intro m st T seg n h hn
    obtain ⟨n, rfl⟩ : ∃ k, n = k + 1 := ⟨n - 1, by omega⟩
    have hn' : rest.length < n := by simp only [List.length_cons] at hn; omega
    obtain ⟨state, here, mark, buffer, name, fqdn, ipv4, ipv6, port, service, path, isIpv4, isIpv6, rc⟩ := m
    have hst : state = st := h.state
    subst hst
    have hd := h.read
    have hc0 : c ≠ 0#8 := fun h' => h.nz1.1 h'.symm
    unfold advance at hd
    cases state
    · -- start
      rw [lst]
      simp only [if_neg hc0] at hd
      split at hd
      · rw [if_pos (by assumption)]
        exact go hd (fun h => by cases h) (ih _ _ _ _ _ (h.skip (by decide) rfl mark seg) hn')
      rw [if_neg (by assumption)]
      split at hd
      · rw [if_pos (by assumption)]
        exact go hd (fun h => by cases h) (ih _ _ _ _ _ (h.skip (by decide) rfl mark seg) hn')
      rw [if_neg (by assumption)]
      split at hd
      · rw [if_pos (by assumption)]
        exact go hd (fun h => by cases h) (ih _ _ _ _ _ (h.before (by decide)) hn')
      rw [if_neg (by assumption)]
      split at hd
      · rw [if_pos (by assumption)]
        exact go hd (fun h => by cases h) (ih _ _ _ _ _ (h.first (by decide)) hn')
      rw [if_neg (by assumption)]
      split at hd
      · rw [if_pos (by assumption)]
        exact go hd (fun h => by cases h) (ih _ _ _ _ _ (h.first (by decide)) hn')
      rw [if_neg (by assumption)]
      split at hd
      · rw [if_pos (by assumption)]
        exact go hd (fun h => by cases h) (ih _ _ _ _ _ (h.first (by decide)) hn')
      rw [if_neg (by assumption)]
      split at hd
      · rw [if_pos (by assumption)]
        exact go hd (fun h => by cases h) (ih _ _ _ _ _ (h.first (by decide)) hn')
      rw [if_neg (by assumption)]
      exact go hd (fun h => by cases h) (ih _ _ _ _ _ (h.skip (by decide) rfl (some here) seg) hn')
    · -- digit
      rw [lst]
      simp only [if_neg hc0] at hd
      split at hd
      · rw [if_pos (by assumption)]
        exact go hd (fun h => by cases h) (ih _ _ _ _ _ (h.more (by decide) (by decide)) hn')
      rw [if_neg (by assumption)]
      split at hd
      · rw [if_pos (by assumption)]
        exact go hd (fun h => by cases h) (ih _ _ _ _ _ (h.more (by decide) (by decide)) hn')
      rw [if_neg (by assumption)]
      split at hd
      · rw [if_pos (by assumption)]
        exact go hd (fun h => by cases h) (ih _ _ _ _ _ (h.more (by decide) (by decide)) hn')
      rw [if_neg (by assumption)]
      split at hd
      · rw [if_pos (by assumption)]
        exact go hd (fun h => by cases h) (ih _ _ _ _ _ (h.more (by decide) (by decide)) hn')
      rw [if_neg (by assumption)]
      split at hd
      · rw [if_pos (by assumption)]
        exact go hd (fun h => by cases h) (ih _ _ _ _ _ (h.more (by decide) (by decide)) hn')
      rw [if_neg (by assumption)]
      exact halt hd rfl (h.bad rfl)
    · -- period
      rw [lst]
      simp only [if_neg hc0] at hd
      split at hd
      · rw [if_pos (by assumption)]
        exact go hd (fun h => by cases h) (ih _ _ _ _ _ (h.more (by decide) (by decide)) hn')
      rw [if_neg (by assumption)]
      split at hd
      · rw [if_pos (by assumption)]
        exact go hd (fun h => by cases h) (ih _ _ _ _ _ (h.more (by decide) (by decide)) hn')
      rw [if_neg (by assumption)]
      split at hd
      · rw [if_pos (by assumption)]
        exact go hd (fun h => by cases h) (ih _ _ _ _ _ (h.cut4 rfl rfl) hn')
      rw [if_neg (by assumption)]
      split at hd
      · rw [if_pos (by assumption)]
        exact go hd (fun h => by cases h) (ih _ _ _ _ _ (h.more (by decide) (by decide)) hn')
      rw [if_neg (by assumption)]
      split at hd
      · rw [if_pos (by assumption)]
        exact go hd (fun h => by cases h) (ih _ _ _ _ _ (h.more (by decide) (by decide)) hn')
      rw [if_neg (by assumption)]
      exact halt hd rfl (h.bad rfl)
    · -- letter
      rw [lst]
      simp only [if_neg hc0] at hd
      split at hd
      · rw [if_pos (by assumption)]
        exact go hd (fun h => by cases h) (ih _ _ _ _ _ (h.more (by decide) (by decide)) hn')
      rw [if_neg (by assumption)]
      split at hd
      · rw [if_pos (by assumption)]
        exact go hd (fun h => by cases h) (ih _ _ _ _ _ (h.more (by decide) (by decide)) hn')
      rw [if_neg (by assumption)]
      split at hd
      · rw [if_pos (by assumption)]
        exact go hd (fun h => by cases h) (ih _ _ _ _ _ (h.cutFqdn rfl rfl) hn')
      rw [if_neg (by assumption)]
      split at hd
      · rw [if_pos (by assumption)]
        exact go hd (fun h => by cases h) (ih _ _ _ _ _ (h.more (by decide) (by decide)) hn')
      rw [if_neg (by assumption)]
      split at hd
      · rw [if_pos (by assumption)]
        exact go hd (fun h => by cases h) (ih _ _ _ _ _ (h.more (by decide) (by decide)) hn')
      rw [if_neg (by assumption)]
      split at hd
      · rw [if_pos (by assumption)]
        exact go hd (fun h => by cases h) (ih _ _ _ _ _ (h.more (by decide) (by decide)) hn')
      rw [if_neg (by assumption)]
      exact halt hd rfl (h.bad rfl)
    · -- colon
      rw [lst]
      simp only [if_neg hc0] at hd
      split at hd
      · rw [if_pos (by assumption)]
        exact go hd (fun h => by cases h) (ih _ _ _ _ _ (h.first (by decide)) hn')
      rw [if_neg (by assumption)]
      split at hd
      · rw [if_pos (by assumption)]
        exact go hd (fun h => by cases h) (ih _ _ _ _ _ (h.first (by decide)) hn')
      rw [if_neg (by assumption)]
      exact halt hd rfl (h.bad rfl)
    · -- ipv6
      rw [lst]
      simp only at hd
      split at hd
      · rw [if_pos (by assumption)]
        exact go hd (fun h => by cases h) (ih _ _ _ _ _ (h.cut6 rfl rfl) hn')
      rw [if_neg (by assumption)]
      split at hd
      · rw [if_pos (by assumption)]
        exact go hd (fun h => by cases h) (ih _ _ _ _ _ (h.more (by decide) (by decide)) hn')
      rw [if_neg (by assumption)]
      split at hd
      · rw [if_pos (by assumption)]
        exact go hd (fun h => by cases h) (ih _ _ _ _ _ (h.more (by decide) (by decide)) hn')
      rw [if_neg (by assumption)]
      split at hd
      · rw [if_pos (by assumption)]
        exact go hd (fun h => by cases h) (ih _ _ _ _ _ (h.more (by decide) (by decide)) hn')
      rw [if_neg (by assumption)]
      split at hd
      · rw [if_pos (by assumption)]
        exact go hd (fun h => by cases h) (ih _ _ _ _ _ (h.more (by decide) (by decide)) hn')
      rw [if_neg (by assumption)]
      exact halt hd rfl (h.bad rfl)
    · -- port
      rw [lst]
      simp only [if_neg hc0] at hd
      split at hd
      · rw [if_pos (by assumption)]
        exact go hd (fun h => by cases h) (ih _ _ _ _ _ (h.more (by decide) (by decide)) hn')
      rw [if_neg (by assumption)]
      exact halt hd rfl (h.bad rfl)
    · -- fqdn
      rw [lst]
      simp only [if_neg hc0] at hd
      split at hd
      · rw [if_pos (by assumption)]
        exact go hd (fun h => by cases h) (ih _ _ _ _ _ (h.more (by decide) (by decide)) hn')
      rw [if_neg (by assumption)]
      split at hd
      · rw [if_pos (by assumption)]
        exact go hd (fun h => by cases h) (ih _ _ _ _ _ (h.more (by decide) (by decide)) hn')
      rw [if_neg (by assumption)]
      split at hd
      · rw [if_pos (by assumption)]
        exact go hd (fun h => by cases h) (ih _ _ _ _ _ (h.more (by decide) (by decide)) hn')
      rw [if_neg (by assumption)]
      split at hd
      · rw [if_pos (by assumption)]
        exact go hd (fun h => by cases h) (ih _ _ _ _ _ (h.more (by decide) (by decide)) hn')
      rw [if_neg (by assumption)]
      split at hd
      · rw [if_pos (by assumption)]
        exact go hd (fun h => by cases h) (ih _ _ _ _ _ (h.cutFqdn rfl rfl) hn')
      rw [if_neg (by assumption)]
      split at hd
      · rw [if_pos (by assumption)]
        exact go hd (fun h => by cases h) (ih _ _ _ _ _ (h.more (by decide) (by decide)) hn')
      rw [if_neg (by assumption)]
      exact halt hd rfl (h.bad rfl)
    · -- service
      rw [lst]
      simp only [if_neg hc0] at hd
      split at hd
      · rw [if_pos (by assumption)]
        exact go hd (fun h => by cases h) (ih _ _ _ _ _ (h.more (by decide) (by decide)) hn')
      rw [if_neg (by assumption)]
      split at hd
      · rw [if_pos (by assumption)]
        exact go hd (fun h => by cases h) (ih _ _ _ _ _ (h.more (by decide) (by decide)) hn')
      rw [if_neg (by assumption)]
      exact halt hd rfl (h.bad rfl)
    · -- next
      rw [lst]
      simp only [if_neg hc0] at hd
      split at hd
      · rw [if_pos (by assumption)]
        exact go hd (fun h => by cases h) (ih _ _ _ _ _ (h.skip (by decide) rfl mark seg) hn')
      rw [if_neg (by assumption)]
      exact halt hd rfl (h.bad rfl)
    · -- path
      rw [lst]
      simp only [if_neg hc0] at hd
      exact go hd (fun h => by cases h) (ih _ _ _ _ _ (h.more (by decide) (by decide)) hn')
    · -- stop
      rw [lst]
      exact halt hd rfl (h.bad rfl)

theorem R_begin {s : List Byte} (h0 : 0#8 ∉ s) (hl : s.length < SIZE) : R (begin s) .start .none [] s := by
  refine ⟨rfl, ⟨List.replicate (SIZE - s.length - 1) 0#8, ?_⟩, h0, rfl, ⟨rfl, rfl, rfl, rfl⟩, ⟨rfl, rfl, rfl, rfl, rfl⟩, fun _ => rfl,
    fun e => by simp [marked] at e⟩
  change (fill s).drop 0 = _
  rw [List.drop_zero, fill, List.take_of_length_le (by omega), ← List.replicate_succ]
  congr 2
  omega

theorem fill_short {s : List Byte} (hl : s.length < SIZE) : (fill s)[SIZE - 1]? = some 0#8 := by
  rw [fill, List.take_of_length_le (by omega), List.getElem?_append_right (by omega), List.getElem?_replicate]
  rw [if_pos (by omega)]

theorem fill_long {s : List Byte} (h0 : 0#8 ∉ s) (hl : SIZE ≤ s.length) : (fill s)[SIZE - 1]? ≠ some 0#8 := by
  have hS : 0 < SIZE := by decide
  rw [fill, List.getElem?_append_left (by simp; omega), List.getElem?_take_of_lt (by omega)]
  intro h
  exact h0 (List.mem_of_getElem? h)

theorem pointer_none {b : List Byte} {o : Option Nat} (h : o = none) : pointer b o = some none := by rw [h]; rfl

/-- The string of a numeric port. -/
def Port.num : Port → Option (List Byte)
  | .number q => some q
  | _ => Option.none

/-- The string of a service. -/
def Port.svc : Port → Option (List Byte)
  | .service q => some q
  | _ => Option.none

/-- What is passed on for a phrase. -/
def hand (env : Env) (preference : Kind) : Phrase → Outcome
  | .path p => resolve env preference 0 none none none none none none (some p) false false
  | .net t p =>
    let name := match t with | .name h => some h | _ => none
    let fqdn := match t with | .fqdn h => some h | _ => none
    let ipv4 := match t with | .ipv4 h => some h | _ => none
    let ipv6 := match t with | .ipv6 h => some h | _ => none
    resolve env preference 0 name fqdn ipv4 ipv6 p.num p.svc none ipv4.isSome ipv6.isSome

theorem prefer_hand (env : Env) (preference : Kind) {s : List Byte} (h0 : 0#8 ∉ s) (hl : s.length < SIZE) :
    prefer env preference s = match grammar s with
      | none => some (-1, blank)
      | some p => hand env preference p := by
  obtain ⟨m, hm, ho⟩ := refine_lst s (begin s) .start .none [] (SIZE + 1) (R_begin h0 hl) (by omega)
  rw [lst_start] at ho
  unfold prefer
  rw [if_neg (by simp [fill_short hl]), hm, Option.bind_some]
  cases hg : grammar s with
  | none =>
    obtain ⟨h1, h2, h3, h4, h5, t, h6⟩ := ho.bad hg
    have : ∃ f a b, pointer m.buffer m.fqdn = some f ∧ pointer m.buffer m.ipv4 = some a ∧ pointer m.buffer m.ipv6 = some b := by
      cases t with
      | none => exact ⟨_, _, _, pointer_none h6.1, pointer_none h6.2.1, pointer_none h6.2.2.1⟩
      | name h => exact h6.elim
      | fqdn h => exact ⟨_, _, _, h6.1, pointer_none h6.2.1, pointer_none h6.2.2.1⟩
      | ipv4 h => exact ⟨_, _, _, pointer_none h6.1, h6.2.1, pointer_none h6.2.2.1⟩
      | ipv6 h => exact ⟨_, _, _, pointer_none h6.1, pointer_none h6.2.1, h6.2.2.1⟩
    obtain ⟨f, a, b, e1, e2, e3⟩ := this
    simp only [pointer_none h2, pointer_none h3, pointer_none h4, pointer_none h5, e1, e2, e3, Option.bind_some, h1]
    rfl
  | some p =>
    obtain ⟨h1, h2⟩ := ho.ok p hg
    cases p with
    | path p =>
      obtain ⟨a1, a2, a3, a4, a5, a6, a7, a8, a9⟩ := h2
      simp only [pointer_none a1, pointer_none a2, pointer_none a3, a4, pointer_none a5, pointer_none a6, pointer_none a7, a8, a9, h1,
        Option.bind_some, hand]
    | net t q =>
      obtain ⟨a1, a2, a3⟩ := h2
      have hq : pointer m.buffer m.port = some q.num ∧
          pointer m.buffer m.service = some q.svc := by
        cases q with
        | none => exact ⟨pointer_none a2.1, pointer_none a2.2⟩
        | number q => exact ⟨a2.1, pointer_none a2.2⟩
        | service q => exact ⟨pointer_none a2.1, a2.2⟩
      simp only [pointer_none a1, hq, Option.bind_some, h1, hand]
      cases t with
      | none =>
        obtain ⟨b1, b2, b3, b4, b5, b6⟩ := a3
        simp only [pointer_none b1, pointer_none b2, pointer_none b3, pointer_none b4, b5, b6, Option.bind_some]
        rfl
      | name h =>
        obtain ⟨b1, b2, b3, b4, b5, b6⟩ := a3
        simp only [b1, pointer_none b2, pointer_none b3, pointer_none b4, b5, b6, Option.bind_some]
        rfl
      | fqdn h =>
        obtain ⟨b1, b2, b3, b4, b5, b6⟩ := a3
        simp only [pointer_none b1, b2, pointer_none b3, pointer_none b4, b5, b6, Option.bind_some]
        rfl
      | ipv4 h =>
        obtain ⟨b1, b2, b3, b4, b5, b6⟩ := a3
        simp only [pointer_none b1, pointer_none b2, b3, pointer_none b4, b5, b6, Option.bind_some]
        rfl
      | ipv6 h =>
        obtain ⟨b1, b2, b3, b4, b5, b6⟩ := a3
        simp only [pointer_none b1, pointer_none b2, pointer_none b3, b4, b5, b6, Option.bind_some]
        rfl

theorem hand_path (env : Env) (preference : Kind) (p : List Byte) : hand env preference (.path p) = some (meaning env preference (.path p)) := by
  cases p with
  | nil => rfl
  | cons c p =>
    cases h : env.path (c :: p) <;> simp [hand, resolve, meaning, h, blank]

theorem hand_net (env : Env) (preference : Kind) (t : Target) (p : Port) : hand env preference (.net t p) =
    if PortFits (.net t p) then some (meaning env preference (.net t p)) else none := by
  have hpref : (preference = .ipv4 → choose env preference = .ipv4) ∧ (preference = .ipv6 → choose env preference = .ipv6) ∧
      (preference ≠ .ipv4 → preference ≠ .ipv6 → choose env preference = if env.prefer6 then .ipv6 else .ipv4) := by
    refine ⟨?_, ?_, ?_⟩ <;> intros <;> cases preference <;> simp_all [choose]
  obtain ⟨hp4, hp6, hpn⟩ := hpref
  cases p with
  | none =>
    cases t with
    | none =>
      simp only [hand, resolve, meaning, status, addresses, ports, family, blank, PortFits, Port.num, Port.svc, Option.isSome_none, if_true, Bool.false_eq_true,
        if_false]
      grind
    | ipv4 h =>
      simp only [hand, resolve, meaning, status, addresses, ports, family, blank, PortFits, Port.num, Port.svc, Option.isSome_none, if_true, Bool.false_eq_true,
        if_false]
      grind
    | ipv6 h =>
      simp only [hand, resolve, meaning, status, addresses, ports, family, blank, PortFits, Port.num, Port.svc, Option.isSome_none, if_true, Bool.false_eq_true,
        if_false]
      grind
    | name h =>
      simp only [hand, resolve, meaning, status, addresses, ports, family, blank, PortFits, Port.num, Port.svc, Option.isSome_none, if_true, Bool.false_eq_true,
        if_false]
      grind
    | fqdn h =>
      simp only [hand, resolve, meaning, status, addresses, ports, family, blank, PortFits, Port.num, Port.svc, Option.isSome_none, if_true, Bool.false_eq_true,
        if_false]
      grind
  | number q =>
    cases t with
    | none =>
      simp only [hand, resolve, meaning, status, addresses, ports, family, blank, PortFits, Port.num, Port.svc, Option.isSome_none, if_true, Bool.false_eq_true,
        if_false, atoi, value]
      grind
    | ipv4 h =>
      simp only [hand, resolve, meaning, status, addresses, ports, family, blank, PortFits, Port.num, Port.svc, Option.isSome_none, if_true, Bool.false_eq_true,
        if_false, atoi, value]
      grind
    | ipv6 h =>
      simp only [hand, resolve, meaning, status, addresses, ports, family, blank, PortFits, Port.num, Port.svc, Option.isSome_none, if_true, Bool.false_eq_true,
        if_false, atoi, value]
      grind
    | name h =>
      simp only [hand, resolve, meaning, status, addresses, ports, family, blank, PortFits, Port.num, Port.svc, Option.isSome_none, if_true, Bool.false_eq_true,
        if_false, atoi, value]
      grind
    | fqdn h =>
      simp only [hand, resolve, meaning, status, addresses, ports, family, blank, PortFits, Port.num, Port.svc, Option.isSome_none, Bool.false_eq_true,
        if_false, atoi, value]
      grind
  | service q =>
    cases t with
    | none =>
      simp only [hand, resolve, meaning, status, addresses, ports, family, blank, PortFits, Port.num, Port.svc, Option.isSome_none, if_true, Bool.false_eq_true,
        if_false]
      grind
    | ipv4 h =>
      simp only [hand, resolve, meaning, status, addresses, ports, family, blank, PortFits, Port.num, Port.svc, Option.isSome_none, if_true, Bool.false_eq_true,
        if_false]
      grind
    | ipv6 h =>
      simp only [hand, resolve, meaning, status, addresses, ports, family, blank, PortFits, Port.num, Port.svc, Option.isSome_none, if_true, Bool.false_eq_true,
        if_false]
      grind
    | name h =>
      simp only [hand, resolve, meaning, status, addresses, ports, family, blank, PortFits, Port.num, Port.svc, Option.isSome_some, Option.isSome_none, if_true, Bool.false_eq_true,
        if_false]
      by_cases h1 : env.tcp q = 0 <;> by_cases h2 : env.udp q = 0 <;> simp only [h1, h2] <;> grind
    | fqdn h =>
      simp only [hand, resolve, meaning, status, addresses, ports, family, blank, PortFits, Port.num, Port.svc, Option.isSome_none, if_true, Bool.false_eq_true,
        if_false]
      grind

theorem status_ne (env : Env) (t : Target) (p : Port) : status env t p ≠ -1 := by
  unfold status
  split <;> (repeat' split) <;> decide

end Diminuto.Endpoint
