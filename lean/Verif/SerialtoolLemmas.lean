import Verif.SerialtoolSpec
import Verif.NumberProps
import Verif.SerialProps

/-!
# Lemmas for the tool for serial ports: the options and the port
-/

namespace Diminuto.Serialtool

open Diminuto.Number (Reads)

theorem number_means (text : List Byte) : Means text (number text) := by
  unfold Means number Number.strtoull
  cases h : Number.scan text with
  | none =>
    refine Or.inr ⟨?_, rfl⟩
    intro g n r hr
    rw [(Number.scan_iff text g n r).mpr hr] at h
    cases h
  | some x =>
    obtain ⟨g, n, r⟩ := x
    refine Or.inl ⟨g, n, r, (Number.scan_iff text g n r).mp h, ?_⟩
    simp only []
    by_cases hn : n < 2 ^ 64
    · rw [if_pos hn, if_pos hn]
    · rw [if_neg hn, if_neg hn]

theorem means_unique {text : List Byte} {v w : Nat} (h : Means text v) (h' : Means text w) : v = w := by
  rcases h with ⟨g, n, r, hr, rfl⟩ | ⟨hn, rfl⟩ <;> rcases h' with ⟨g', n', r', hr', rfl⟩ | ⟨hn', rfl⟩
  · obtain ⟨rfl, rfl, rfl⟩ := Number.number_unique hr hr'
    rfl
  · exact absurd hr (hn' _ _ _)
  · exact absurd hr' (hn _ _ _)
  · rfl

theorem field {α β : Type} (f : Config → α) (says : Opt → Option β) (g : β → α) (h : ∀ o c c', option o c = some c' → f c' = ((says o).map g).getD (f c)) :
    ∀ (opts : List Opt) (c c' : Config), options opts c = some c' → f c' = ((latest says opts).map g).getD (f c) := by
  intro opts
  induction opts with
  | nil => intro c c' he; simp only [options, Option.some.injEq] at he; rw [he]; rfl
  | cons o r ih =>
    intro c c' he
    simp only [options] at he
    cases ho : option o c with
    | none => rw [ho] at he; cases he
    | some d =>
      rw [ho] at he
      have h1 := ih d c' he
      have h2 := h o c d ho
      simp only [latest]
      cases hl : latest says r with
      | none => rw [hl] at h1; rw [h1, Option.none_or]; exact h2
      | some v => rw [hl] at h1; rw [h1]; rfl

theorem flag (f : Config → Bool) (p : Opt → Bool) (h : ∀ o c c', option o c = some c' → f c' = (p o || f c)) :
    ∀ (opts : List Opt) (c c' : Config), options opts c = some c' → f c' = (opts.any p || f c) := by
  intro opts
  induction opts with
  | nil => intro c c' he; simp only [options, Option.some.injEq] at he; rw [he]; rfl
  | cons o r ih =>
    intro c c' he
    simp only [options] at he
    cases ho : option o c with
    | none => rw [ho] at he; cases he
    | some d =>
      rw [ho] at he
      rw [ih d c' he, h o c d ho, List.any_cons]
      cases p o <;> cases r.any p <;> rfl

theorem any_mem (x : Opt) (opts : List Opt) : opts.any (fun o => decide (o = x)) = decide (x ∈ opts) := by
  rw [Bool.eq_iff_iff, List.any_eq_true, decide_eq_true_eq]
  constructor
  · rintro ⟨o, ho, h⟩; rw [decide_eq_true_eq] at h; exact h ▸ ho
  · intro h; exact ⟨x, h, decide_eq_true rfl⟩

theorem options_some : ∀ (opts : List Opt) (c : Config), .menu ∉ opts → ∃ c', options opts c = some c' := by
  intro opts
  induction opts with
  | nil => intro c _; exact ⟨c, rfl⟩
  | cons o r ih =>
    intro c hm
    have h1 : ∃ d, option o c = some d := by cases o <;> first | exact ⟨_, rfl⟩ | exact absurd (List.mem_cons_self ..) hm
    obtain ⟨d, hd⟩ := h1
    obtain ⟨c', hc⟩ := ih d (fun h => hm (List.mem_cons_of_mem _ h))
    exact ⟨c', by simp only [options, hd, Option.bind_some, hc]⟩

theorem options_none : ∀ (opts : List Opt) (c : Config), .menu ∈ opts → options opts c = none := by
  intro opts
  induction opts with
  | nil => intro c h; cases h
  | cons o r ih =>
    intro c hm
    simp only [options]
    rcases List.mem_cons.mp hm with rfl | h
    · rfl
    · cases option o c with
      | none => rfl
      | some d => exact ih d h

theorem options_asked {opts : List Opt} {c : Config} (h : options opts .start = some c) : Asked opts c := by
  have num : ∀ (f : Config → Nat) (says : Opt → Option (List Byte)), (∀ o c c', option o c = some c' → f c' = ((says o).map number).getD (f c)) →
      f c = ((latest says opts).map number).getD (f .start) := fun f says hs => field f says number hs opts _ _ h
  constructor
  · have h1 := field (·.bitspersecond) saysRate (fun t => (BitVec.ofNat 32 (number t)).toInt) (by intro o c c' ho; cases o <;> cases ho <;> rfl) opts _ _ h
    cases hl : latest saysRate opts with
    | none => rw [hl] at h1; exact h1
    | some t =>
      rw [hl] at h1
      refine ⟨number t, number_means t, ?_⟩
      rw [← BitVec.toInt_ofNat]; exact h1
  · have := field (·.databits) saysData id (by intro o c c' ho; cases o <;> cases ho <;> rfl) opts _ _ h
    rw [Option.map_id] at this; exact this
  · have := field (·.paritybit) saysParity id (by intro o c c' ho; cases o <;> cases ho <;> rfl) opts _ _ h
    rw [Option.map_id] at this; exact this
  · have := field (·.stopbits) saysStop id (by intro o c c' ho; cases o <;> cases ho <;> rfl) opts _ _ h
    rw [Option.map_id] at this; exact this
  · have := field (·.modemcontrol) saysModem id (by intro o c c' ho; cases o <;> cases ho <;> rfl) opts _ _ h
    rw [Option.map_id] at this; exact this
  · have := flag (·.xonxoff) (fun o => decide (o = .software)) (by intro o c c' ho; cases o <;> cases ho <;> rfl) opts _ _ h
    rw [this, any_mem]; exact Bool.or_false _
  · have := flag (·.rtscts) (fun o => decide (o = .hardware)) (by intro o c c' ho; cases o <;> cases ho <;> rfl) opts _ _ h
    rw [this, any_mem]; exact Bool.or_false _
  · have := flag (·.carrierdetect) (fun o => decide (o = .carrier)) (by intro o c c' ho; cases o <;> cases ho <;> rfl) opts _ _ h
    rw [this, any_mem]; exact Bool.or_false _
  · have := field (·.device) saysDevice id (by intro o c c' ho; cases o <;> cases ho <;> rfl) opts _ _ h
    rw [Option.map_id] at this; exact this
  · have := field (·.forward) saysForward id (by intro o c c' ho; cases o <;> cases ho <;> rfl) opts _ _ h
    rw [Option.map_id] at this; exact this
  · have := field (·.backward) saysBackward id (by intro o c c' ho; cases o <;> cases ho <;> rfl) opts _ _ h
    rw [Option.map_id] at this; exact this
  · have := flag (·.printable) (fun o => decide (o = .printable)) (by intro o c c' ho; cases o <;> cases ho <;> rfl) opts _ _ h
    rw [this, any_mem]; exact Bool.or_false _
  · have h1 := field (fun c => c.seconds.toNat) saysSeconds (fun t => number t % 2 ^ 32) (by intro o c c' ho; cases o <;> cases ho <;> first | rfl | exact BitVec.toNat_ofNat _ _) opts _ _ h
    cases hl : latest saysSeconds opts with
    | none => rw [hl] at h1; exact h1
    | some t => rw [hl] at h1; exact ⟨number t, number_means t, h1⟩
  · have h1 := num (·.maximum) saysMaximum (by intro o c c' ho; cases o <;> cases ho <;> rfl)
    cases hl : latest saysMaximum opts with
    | none => rw [hl] at h1; exact h1
    | some t => rw [hl] at h1; simp only [] at h1 ⊢; rw [h1]; exact number_means t
  · have := field (·.noinput) saysNoinput id (by intro o c c' ho; cases o <;> cases ho <;> rfl) opts _ _ h
    rw [Option.map_id] at this; exact this
  · have := flag (·.rawterminal) (fun o => decide (o = .raw)) (by intro o c c' ho; cases o <;> cases ho <;> rfl) opts _ _ h
    rw [this, any_mem]; exact Bool.or_false _
  · have := flag (·.nonblocking) (fun o => decide (o = .nonblocking) || decide (o = .interactive)) (by intro o c c' ho; cases o <;> cases ho <;> rfl) opts _ _ h
    rw [this]
    show (_ || false) = _
    rw [Bool.or_false, Bool.decide_or, ← any_mem, ← any_mem]
    clear * -
    induction opts with
    | nil => rfl
    | cons o r ih =>
      simp only [List.any_cons, ih]
      cases decide (o = Opt.nonblocking) <;> cases decide (o = Opt.interactive) <;> simp
  · have := flag (·.onlyaterminal) (fun o => decide (o = .terminal)) (by intro o c c' ho; cases o <;> cases ho <;> rfl) opts _ _ h
    rw [this, any_mem]; exact Bool.or_false _
  · have := flag (·.proceed) (fun o => decide (o = .proceed)) (by intro o c c' ho; cases o <;> cases ho <;> rfl) opts _ _ h
    rw [this, any_mem]; exact Bool.or_false _
  · have h1 := num (·.modulo) saysModulo (by intro o c c' ho; cases o <;> cases ho <;> rfl)
    cases hl : latest saysModulo opts with
    | none => rw [hl] at h1; exact h1
    | some t => rw [hl] at h1; simp only [] at h1 ⊢; rw [h1]; exact number_means t

theorem asked_unique {opts : List Opt} {c d : Config} (h : Asked opts c) (h' : Asked opts d) : c = d := by
  have e1 : c.bitspersecond = d.bitspersecond := by
    have a1 := h.rate
    have a2 := h'.rate
    cases hl : latest saysRate opts with
    | none => rw [hl] at a1 a2; simp only [] at a1 a2; rw [a1, a2]
    | some t =>
      rw [hl] at a1 a2
      obtain ⟨v, hv, e⟩ := a1
      obtain ⟨w, hw, e'⟩ := a2
      rw [e, e', means_unique hv hw]
  have e2 : c.seconds = d.seconds := by
    have a1 := h.seconds
    have a2 := h'.seconds
    cases hl : latest saysSeconds opts with
    | none => rw [hl] at a1 a2; simp only [] at a1 a2; exact BitVec.eq_of_toNat_eq (by rw [a1, a2])
    | some t =>
      rw [hl] at a1 a2
      obtain ⟨v, hv, e⟩ := a1
      obtain ⟨w, hw, e'⟩ := a2
      exact BitVec.eq_of_toNat_eq (by rw [e, e', means_unique hv hw])
  have e3 : c.maximum = d.maximum := by
    have a1 := h.maximum
    have a2 := h'.maximum
    cases hl : latest saysMaximum opts with
    | none => rw [hl] at a1 a2; simp only [] at a1 a2; rw [a1, a2]
    | some t => rw [hl] at a1 a2; exact means_unique a1 a2
  have e4 : c.modulo = d.modulo := by
    have a1 := h.modulo
    have a2 := h'.modulo
    cases hl : latest saysModulo opts with
    | none => rw [hl] at a1 a2; simp only [] at a1 a2; rw [a1, a2]
    | some t => rw [hl] at a1 a2; exact means_unique a1 a2
  have f1 := h.databits.trans h'.databits.symm
  have f2 := h.parity.trans h'.parity.symm
  have f3 := h.stopbits.trans h'.stopbits.symm
  have f4 := h.modem.trans h'.modem.symm
  have f5 := h.software.trans h'.software.symm
  have f6 := h.hardware.trans h'.hardware.symm
  have f7 := h.carrier.trans h'.carrier.symm
  have f8 := h.device.trans h'.device.symm
  have f9 := h.forward.trans h'.forward.symm
  have f10 := h.backward.trans h'.backward.symm
  have f11 := h.printable.trans h'.printable.symm
  have f12 := h.noinput.trans h'.noinput.symm
  have f13 := h.raw.trans h'.raw.symm
  have f14 := h.nonblocking.trans h'.nonblocking.symm
  have f15 := h.terminal.trans h'.terminal.symm
  have f16 := h.proceed.trans h'.proceed.symm
  clear h h'
  cases c
  cases d
  simp only [] at *
  subst e1 e2 e3 e4 f1 f2 f3 f4 f5 f6 f7 f8 f9 f10 f11 f12 f13 f14 f15 f16
  rfl

theorem asked_options {opts : List Opt} {c : Config} (hm : .menu ∉ opts) (h : Asked opts c) : options opts .start = some c := by
  obtain ⟨d, hd⟩ := options_some opts .start hm
  rw [hd, asked_unique h (options_asked hd)]

/-- What of the parameters is there in every configuration that has been asked for. -/
theorem asked_format {opts : List Opt} {c : Config} (h : Asked opts c) : (5 ≤ c.databits ∧ c.databits ≤ 8) ∧ (c.stopbits = 1 ∨ c.stopbits = 2) := by
  have h1 : ∀ (opts : List Opt), (∀ v, latest saysData opts = some v → 5 ≤ v ∧ v ≤ 8) ∧ (∀ v, latest saysStop opts = some v → v = 1 ∨ v = 2) := by
    intro opts
    induction opts with
    | nil => exact ⟨(by intro v hv; cases hv), (by intro v hv; cases hv)⟩
    | cons o r ih =>
      refine ⟨fun v hv => ?_, fun v hv => ?_⟩
      · simp only [latest] at hv
        cases hl : latest saysData r with
        | some w => rw [hl] at hv; simp only [Option.some_or, Option.some.injEq] at hv; subst hv; exact ih.1 w hl
        | none =>
          rw [hl, Option.none_or] at hv
          cases o <;> simp only [saysData, Option.some.injEq, reduceCtorEq] at hv <;> omega
      · simp only [latest] at hv
        cases hl : latest saysStop r with
        | some w => rw [hl] at hv; simp only [Option.some_or, Option.some.injEq] at hv; subst hv; exact ih.2 w hl
        | none =>
          rw [hl, Option.none_or] at hv
          cases o <;> simp only [saysStop, Option.some.injEq, reduceCtorEq] at hv <;> omega
  rw [h.databits, h.stopbits]
  constructor
  · cases hl : latest saysData opts with
    | none => simp
    | some v => exact (h1 opts).1 v hl
  · cases hl : latest saysStop opts with
    | none => exact Or.inl rfl
    | some v => exact (h1 opts).2 v hl

section
variable {σ : Type} (a : Api σ)

/-- The end of the preparation. -/
def Finished (c : Config) (k k' : σ) : Prop := if c.rawterminal then a.raw k = (true, k') else k' = k

theorem prepare_some {c : Config} {k k' : σ} (h : prepare a c k = some k') :
    ∃ k1 k2, a.open_ c.device c.nonblocking k = (true, k1) ∧ a.flags c.nonblocking k1 = (true, k2) ∧
      ((a.port.isatty k2 = true ∧ ∃ k3 k4 k5 k6 e e', a.exclusive k2 = (true, k3) ∧ a.flush k3 = (true, k4) ∧
          Serial.set a.port c.bitspersecond c.databits c.paritybit c.stopbits (if c.modemcontrol then 1 else 0) (if c.xonxoff then 1 else 0) (if c.rtscts then 1 else 0) k4 = ((0, e), k5) ∧
          Serial.raw a.port k5 = ((0, e'), k6) ∧ Finished a c k6 k') ∨
        (a.port.isatty k2 = false ∧ c.onlyaterminal = false ∧ Finished a c k2 k')) := by
  have fin : ∀ q, (if c.rawterminal then match a.raw q with | (ok, k) => if ok then some k else none else some q) = some k' → Finished a c q k' := by
    intro q hq
    unfold Finished
    by_cases hr : c.rawterminal = true
    · rw [if_pos hr] at hq ⊢
      rcases hg : a.raw q with ⟨ok, q'⟩
      rw [hg] at hq
      simp only [] at hq
      cases ok with
      | false => simp at hq
      | true => simp only [if_true, Option.some.injEq] at hq; rw [hq]
    · rw [if_neg hr] at hq ⊢
      simp only [Option.some.injEq] at hq; exact hq.symm
  unfold prepare at h
  rcases h1 : a.open_ c.device c.nonblocking k with ⟨o1, k1⟩
  rw [h1] at h
  cases o1 with
  | false => simp at h
  | true =>
    simp only [] at h
    rcases h2 : a.flags c.nonblocking k1 with ⟨o2, k2⟩
    rw [h2] at h
    cases o2 with
    | false => simp at h
    | true =>
      simp only [] at h
      refine ⟨k1, k2, rfl, h2, ?_⟩
      by_cases ht : a.port.isatty k2 = true
      · rw [if_pos ht] at h
        refine Or.inl ⟨ht, ?_⟩
        rcases h3 : a.exclusive k2 with ⟨o3, k3⟩
        rw [h3] at h
        cases o3 with
        | false => simp at h
        | true =>
          simp only [] at h
          rcases h4 : a.flush k3 with ⟨o4, k4⟩
          rw [h4] at h
          cases o4 with
          | false => simp at h
          | true =>
            simp only [] at h
            rcases h5 : Serial.set a.port c.bitspersecond c.databits c.paritybit c.stopbits (if c.modemcontrol then 1 else 0) (if c.xonxoff then 1 else 0) (if c.rtscts then 1 else 0) k4 with ⟨⟨r, e⟩, k5⟩
            rw [h5] at h
            simp only [] at h
            by_cases hr : r = 0
            · rw [if_neg (by simp [hr])] at h
              rcases h6 : Serial.raw a.port k5 with ⟨⟨r', e'⟩, k6⟩
              rw [h6] at h
              simp only [] at h
              by_cases hr' : r' = 0
              · rw [if_neg (by simp [hr'])] at h
                subst hr hr'
                exact ⟨k3, k4, k5, k6, e, e', rfl, h4, h5, h6, fin _ h⟩
              · rw [if_pos hr'] at h; cases h
            · rw [if_pos hr] at h; cases h
      · rw [if_neg ht] at h
        by_cases ho : c.onlyaterminal = true
        · rw [if_pos ho] at h; cases h
        · rw [if_neg ho] at h
          exact Or.inr ⟨by simpa using ht, by simpa using ho, fin _ h⟩

theorem finished_port {port : σ → Serial.Termios} (hr : ∀ k, port (a.raw k).2 = port k) {c : Config} {k k' : σ} (h : Finished a c k k') : port k' = port k := by
  unfold Finished at h
  by_cases hc : c.rawterminal = true
  · rw [if_pos hc] at h
    have := hr k
    rw [h] at this; exact this
  · rw [if_neg hc] at h; rw [h]

end

/-- A bit that is not among those that may differ does not. -/
theorem same_bit {x y m : BitVec 32} (h : y &&& ~~~m = x &&& ~~~m) (n : Nat) (hn : (~~~m).getLsbD n = true) : y.getLsbD n = x.getLsbD n := by
  have := congrArg (fun v => v.getLsbD n) h
  simpa only [BitVec.getLsbD_and, hn, Bool.and_true] using this

theorem set_zero {σ : Type} (w : Serial.World σ) {b d p st m x r : Int} {s s' : σ} {e : Option Serial.Errno} (h : Serial.set w b d p st m x r s = ((0, e), s')) :
    Serial.Askable b d st ∧ w.isatty s = true := by
  have ha : Serial.Askable b d st := Classical.byContradiction fun hn => by rw [Serial.serial_set_refuses w b d p st m x r s hn] at h; simp at h
  refine ⟨ha, ?_⟩
  cases ht : w.isatty s with
  | true => rfl
  | false => rw [(Serial.serial_not_terminal w b d p st m x r s ht).1 ha] at h; simp at h

theorem raw_zero {σ : Type} (w : Serial.World σ) {s s' : σ} {e : Option Serial.Errno} (h : Serial.raw w s = ((0, e), s')) : w.isatty s = true := by
  cases ht : w.isatty s with
  | true => rfl
  | false => rw [(Serial.serial_not_terminal w 0 0 0 0 0 0 0 s ht).2.1] at h; simp at h

/-- The port after both. -/
theorem port_after {σ : Type} (w : Serial.World σ) (port : σ → Serial.Termios) (hw : Serial.Faithful w port) {b d p st m x r : Int} {s s' s'' : σ} {e e' : Option Serial.Errno}
    (h : Serial.set w b d p st m x r s = ((0, e), s')) (h' : Serial.raw w s' = ((0, e'), s'')) :
    (if b = -1 then (port s'').rate = (port s).rate else (port s'').rate = some b.toNat) ∧ (port s'').stopbits = st ∧ (port s'').hardware = decide (r ≠ 0) ∧ (port s'').uncooked ∧
    (port s'').software = (false, decide (x ≠ 0)) ∧ (port s'').databits = 8 ∧ (port s'').odd = none ∧ (port s'').cflag.getLsbD 11 = true ∧ (port s'').cflag.getLsbD 10 = decide (m ≠ 0) := by
  obtain ⟨ha, ht⟩ := set_zero w h
  have ht' := raw_zero w h'
  rcases Serial.serial_set_partial w port hw b d p st m x r s ha ht with ⟨-, h1, h2, -⟩ | ⟨h1, -⟩
  · rcases Serial.serial_raw w port hw s' ht' with ⟨-, g1, g2, g3, g4, g5, g6⟩ | ⟨g1, -⟩
    · rw [h] at h1 h2
      rw [h'] at g1 g2 g3 g4 g5 g6
      simp only [] at h1 h2 g1 g2 g3 g4 g5 g6
      have hc : ∀ n ∈ [0, 1, 2, 3, 6, 10, 12, 31], (port s'').cflag.getLsbD n = (port s').cflag.getLsbD n := by
        intro n hn
        exact same_bit g6.cflag n (by clear * - hn; revert n; decide)
      have hrate : (port s'').rate = (port s').rate := by
        unfold Serial.Termios.rate
        rw [hc 0 (by decide), hc 1 (by decide), hc 2 (by decide), hc 3 (by decide), hc 12 (by decide)]
      refine ⟨?_, ?_, ?_, g1, ?_, g2, g3, g4, ?_⟩
      · rw [hrate]
        by_cases hb : b = -1
        · rw [if_pos hb] at h2 ⊢; exact h2.2
        · rw [if_neg hb] at h2 ⊢; exact h2
      · have := h1.stopbits
        unfold Serial.Termios.stopbits at this ⊢
        rw [hc 6 (by decide)]; exact this
      · have := h1.hardware
        unfold Serial.Termios.hardware at this ⊢
        rw [hc 31 (by decide)]; exact this
      · have hx := h1.software
        have hy := g5
        unfold Serial.Termios.software at hx hy ⊢
        simp only [Prod.mk.injEq] at hx hy ⊢
        exact ⟨hy, by rw [same_bit g6.iflag 12 (by decide)]; exact hx.2⟩
      · rw [hc 10 (by decide)]
        by_cases hm : m = 0
        · have := (h1.direct hm).2
          rw [this]; simp [hm]
        · have := (h1.modem hm).2
          rw [this]; simp [hm]
    · rw [h'] at g1; cases g1
  · rw [h] at h1; cases h1

end Diminuto.Serialtool
