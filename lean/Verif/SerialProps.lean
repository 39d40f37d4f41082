import Verif.SerialLemmas

/-!
# The Serial feature
-/

namespace Diminuto.Serial

/-- C110.  What cannot be asked for is refused with `EINVAL`, without any system call. -/
theorem serial_set_refuses {σ : Type} (w : World σ) (b d p st m x r : Int) (s : σ) (h : ¬ Askable b d st) : set w b d p st m x r s = ((-1, some .invalid), s) := by
  unfold set
  cases hb : speed b with
  | none => rfl
  | some o =>
    cases hd : data d with
    | none => rfl
    | some y =>
      cases hs : stop st with
      | none => rfl
      | some z => exact absurd ⟨(speed_defined b).mp ⟨o, hb⟩, (data_defined d).mp ⟨y, hd⟩, (stop_defined st).mp ⟨z, hs⟩⟩ h

/-- C110.  What is not a terminal is left alone. -/
theorem serial_not_terminal {σ : Type} (w : World σ) (b d p st m x r : Int) (s : σ) (h : w.isatty s = false) :
    (Askable b d st → set w b d p st m x r s = ((-1, some .notty), s)) ∧ raw w s = ((-1, some .invalid), s) ∧ wait w s = ((-1, some .invalid), s) ∧ status w s = ((-1, some .invalid), s) ∧
    available w s = ((-1, some .invalid), s) ∧ valid w s = 0 := by
  refine ⟨fun ha => ?_, ?_, ?_, ?_, ?_, ?_⟩
  · obtain ⟨o, y, z, -, -, -, he⟩ := set_askable w ha p m x r s
    rw [he, h]; rfl
  · simp [raw, h]
  · simp [wait, h]
  · simp [status, h]
  · simp [available, h]
  · simp [valid, h]

/-- C110.  Claimed: if the settings are successfully set, then the port has them.  Shown here for a system that sets all of the settings or fails. The settings that are asked for are all there, the speed is the
one that is asked for or else as it was, and no other setting has changed; and if setting them fails then nothing has. -/
theorem serial_set_partial {σ : Type} (w : World σ) (port : σ → Termios) (hw : Faithful w port) (b d p st m x r : Int) (s : σ) (ha : Askable b d st) (ht : w.isatty s = true) :
    ((set w b d p st m x r s).1.1 = 0 ∧ Meets (port (set w b d p st m x r s).2) d p st m x r ∧
        (if b = -1 then (port (set w b d p st m x r s).2).cflag &&& 0x100f#32 = (port s).cflag &&& 0x100f#32 ∧ (port (set w b d p st m x r s).2).rate = (port s).rate
          else (port (set w b d p st m x r s).2).rate = some b.toNat) ∧
        Others (port s) (port (set w b d p st m x r s).2) 0x800015eb#32 0x1#32 0x80001fff#32 0x804b#32) ∨
    ((set w b d p st m x r s).1.1 = -1 ∧ port (set w b d p st m x r s).2 = port s) := by
  obtain ⟨o, y, z, ho, hy, hz, he⟩ := set_askable w ha p m x r s
  rw [he, ht]
  simp only [if_true]
  rcases change_port hw (fun t => settings t o y (parity p) z m x r) s with ⟨h0, hp⟩ | ⟨h0, hp⟩
  · refine Or.inl ⟨h0, ?_, ?_, ?_⟩
    · rw [hp]
      have hb := settings_cflag (port s) o (speed_codes ho) y (parity p) z m x r
      have f1 := control_data (p := p) hy hz (decide (m ≠ 0)) (decide (r ≠ 0))
      have f2 := control_parity (p := p) hy hz (decide (m ≠ 0)) (decide (r ≠ 0))
      have f3 := control_stop (p := p) hy hz (decide (m ≠ 0)) (decide (r ≠ 0))
      obtain ⟨-, -, -, -, -, f4, f5, f6, f7, -⟩ := control_bits y (data_mem hy) _ (parity_mem p) z (stop_mem hz) (decide (m ≠ 0)) (decide (r ≠ 0))
      have hi := settings_iflag (port s) o y (parity p) z m x r
      constructor
      · unfold Termios.databits
        rw [hb 4 (by decide), hb 5 (by decide)]; exact f1
      · unfold Termios.odd
        rw [hb 8 (by decide), hb 9 (by decide)]; exact f2
      · unfold Termios.stopbits
        rw [hb 6 (by decide)]; exact f3
      · intro hm
        unfold Termios.modem
        rw [hb 11 (by decide), hb 10 (by decide), f4, f5]
        simp [hm]
      · intro hm
        unfold Termios.direct
        rw [hb 11 (by decide), hb 10 (by decide), f4, f5]
        simp [hm]
      · unfold Termios.software
        rw [hi 10 (by decide), hi 12 (by decide)]
        rfl
      · unfold Termios.hardware
        rw [hb 31 (by decide)]; exact f6
      · refine ⟨?_, ?_, ?_, ?_, ?_, ?_⟩
        · intro n hn
          have h1 : n ∈ [0, 1, 3, 5, 6, 7, 8, 10, 12] ∧ ¬ (n = 10 ∨ n = 12) := by clear * - hn; revert n; decide
          rw [hi n h1.1, if_neg h1.2]
        · have : (settings (port s) o y (parity p) z m x r).oflag = (port s).oflag &&& ~~~OPOST := by cases o <;> rfl
          rw [this, BitVec.getLsbD_and, show (~~~OPOST).getLsbD 0 = false by decide, Bool.and_false]
        · rw [hb 7 (by decide)]; exact f7
        · intro n hn
          have : (settings (port s) o y (parity p) z m x r).lflag = (port s).lflag &&& ~~~local' := by cases o <;> rfl
          rw [this, BitVec.getLsbD_and, show (~~~local').getLsbD n = false by clear * - hn; revert n; decide, Bool.and_false]
        · rfl
        · rfl
    · rw [hp]
      rcases speed_code ho with ⟨rfl, rfl⟩ | ⟨n, rt, c, hr, hc, hb, rfl⟩
      · rw [if_pos rfl]
        have h1 := (settings_rest (port s) none (by intro s h; cases h) hy hz m x r (p := p)).2 rfl
        refine ⟨h1, ?_⟩
        have bits : ∀ n ∈ [0, 1, 2, 3, 12], (settings (port s) none y (parity p) z m x r).cflag.getLsbD n = (port s).cflag.getLsbD n := by
          intro n hn
          have h2 := congrArg (fun v => v.getLsbD n) h1
          have h3 : (0x100f#32).getLsbD n = true := by clear * - hn; revert n; decide
          simpa only [BitVec.getLsbD_and, h3, Bool.and_true] using h2
        unfold Termios.rate
        rw [bits 0 (by decide), bits 1 (by decide), bits 2 (by decide), bits 3 (by decide), bits 12 (by decide)]
      · rw [if_neg (by omega)]
        have := speed_rate { port s with
            iflag := (port s).iflag &&& ~~~(cooked ||| IXOFF) ||| (if x ≠ 0 then IXON else 0#32) ||| (if x ≠ 0 then IXOFF else 0#32)
            oflag := (port s).oflag &&& ~~~OPOST
            cflag := (port s).cflag &&& ~~~(CSIZE ||| PARENB ||| PARODD ||| CSTOPB ||| CLOCAL ||| HUPCL ||| CRTSCTS) ||| CREAD ||| y ||| parity p ||| z ||| (if m ≠ 0 then 0#32 else CLOCAL) |||
              (if m ≠ 0 then HUPCL else 0#32) ||| (if r ≠ 0 then CRTSCTS else 0#32)
            lflag := (port s).lflag &&& ~~~local' } hr hc
        rw [hb, Int.toNat_natCast]
        exact this
    · rw [hp]
      constructor
      · have base : ∀ f : Bool, ((port s).iflag &&& ~~~(cooked ||| IXOFF) ||| ((if f then IXON else 0#32) ||| (if f then IXOFF else 0#32))) &&& ~~~(0x800015eb#32) = (port s).iflag &&& ~~~(0x800015eb#32) := by
          intro f
          exact masked_eq (by decide) (by cases f <;> decide)
        have hbase := base (decide (x ≠ 0))
        simp only [decide_eq_true_eq, ← BitVec.or_assoc] at hbase
        cases o with
        | none => exact hbase
        | some c =>
          simp only [settings, setSpeed]
          by_cases hc : c = 0#32
          · simp only [hc, if_true]
            rw [← hbase]
            have := masked_eq (x := (port s).iflag &&& ~~~(cooked ||| IXOFF) ||| (if x ≠ 0 then IXON else 0#32) ||| (if x ≠ 0 then IXOFF else 0#32)) (a := BitVec.allOnes 32) (b := 0x80000000#32)
              (c := ~~~(0x800015eb#32)) (by decide) (by decide)
            rwa [BitVec.and_allOnes] at this
          · simp only [hc, if_false]
            rw [masked_and (by decide), hbase]
      · have : (settings (port s) o y (parity p) z m x r).oflag = (port s).oflag &&& ~~~OPOST := by cases o <;> rfl
        rw [this]; exact masked_and (by decide)
      · exact (settings_rest (port s) o (speed_codes ho) hy hz m x r (p := p)).1
      · have : (settings (port s) o y (parity p) z m x r).lflag = (port s).lflag &&& ~~~local' := by cases o <;> rfl
        rw [this]; exact masked_and (by decide)
      · intro n h5 h6
        cases o with
        | none => simp [settings, VMIN, VTIME, h5, h6]
        | some c => simp [settings, setSpeed, VMIN, VTIME, h5, h6]
  · exact Or.inr ⟨h0, hp⟩

/-- C110.  Setting fails if the settings cannot be got or cannot be set, and otherwise is successful: it does not matter whether the data that are pending could be discarded. -/
theorem serial_set_success {σ : Type} (w : World σ) (b d p st m x r : Int) (s : σ) (ha : Askable b d st) (ht : w.isatty s = true) :
    ((w.get s).1 = none → (set w b d p st m x r s).1.1 = -1) ∧ ((∀ t s, (w.set t s).1 = false) → (set w b d p st m x r s).1.1 = -1) ∧
    ((w.get s).1 ≠ none → (∀ t s, (w.set t s).1 = true) → (set w b d p st m x r s).1.1 = 0) := by
  obtain ⟨o, y, z, -, -, -, he⟩ := set_askable w ha p m x r s
  rw [he, if_pos ht]
  simp only []
  rcases change_cases w (fun t => settings t o y (parity p) z m x r) s with ⟨h, t, s', s'', hg, hs, -⟩ | ⟨h, ⟨s', hg, -⟩ | ⟨t, s', s'', hg, hs, -⟩⟩
  · refine ⟨(by intro hn; rw [hg] at hn; cases hn), fun hn => ?_, fun _ _ => h⟩
    have := hn (settings t o y (parity p) z m x r) s'
    rw [hs] at this; cases this
  · exact ⟨fun _ => h, fun _ => h, fun hn => absurd (by rw [hg]) hn⟩
  · refine ⟨fun _ => h, fun _ => h, fun _ hn => ?_⟩
    have := hn (settings t o y (parity p) z m x r) s'
    rw [hs] at this; cases this

theorem sound_faithful : Faithful sound Prod.snd where
  got := by intro s t s' h; simp only [sound, Prod.mk.injEq, Option.some.injEq] at h; exact h.1.symm
  get := fun _ => rfl
  set := by intro s t s' h; simp only [sound, Prod.mk.injEq] at h; rw [← h.2]
  unset := by intro s t s' h; simp [sound] at h
  flush := fun _ => rfl

/-- 115200 8n1 without flow control. -/
example : Faithful sound Prod.snd ∧ Askable 115200 8 1 ∧ (set sound 115200 8 0 1 0 0 0 (true, opened)).1 = (0, none) ∧ (set sound 115200 8 0 1 0 0 0 (true, opened)).2.2.rate = some 115200 ∧
    opened.rate = some 9600 ∧ ¬ Askable 115200 9 1 := by
  refine ⟨sound_faithful, ⟨Or.inr ⟨115200, by decide, rfl⟩, by decide, by decide⟩, by decide, by decide, by decide, ?_⟩
  rintro ⟨-, h, -⟩; omega

/-- C110, refuted for what the standard promises of a system.  Success does not mean that the port has the speed and the format that have been asked for, because the settings are not read back. -/
theorem serial_set_counterexample : Standard stubborn Prod.snd ∧ (set stubborn 115200 7 1 2 0 0 0 (true, opened)).1 = (0, none) ∧ (set stubborn 115200 7 1 2 0 0 0 (true, opened)).2.2.rate = some 9600 ∧
    (set stubborn 115200 7 1 2 0 0 0 (true, opened)).2.2.databits = 8 ∧ (set stubborn 115200 7 1 2 0 0 0 (true, opened)).2.2.odd = none := by
  refine ⟨⟨?_, fun _ => rfl, ?_, ?_, fun _ => rfl⟩, by decide, by decide, by decide, by decide⟩
  · intro s t s' h; simp only [stubborn, sound, Prod.mk.injEq, Option.some.injEq] at h; exact h.1.symm
  · intro s t s' h; simp only [stubborn, Prod.mk.injEq] at h; rw [← h.2]; exact Or.inl rfl
  · intro s t s' h; simp [stubborn] at h

/-- C111.  A port in raw mode receives eight bits without parity, of which none has a meaning for the terminal driver, and ignores the modem lines; its speed, its stop bits, and its flow control, but for that
of the output with characters, are as they were. -/
theorem serial_raw {σ : Type} (w : World σ) (port : σ → Termios) (hw : Faithful w port) (s : σ) (ht : w.isatty s = true) :
    ((raw w s).1.1 = 0 ∧ (port (raw w s).2).uncooked ∧ (port (raw w s).2).databits = 8 ∧ (port (raw w s).2).odd = none ∧ (port (raw w s).2).cflag.getLsbD 11 = true ∧ (port (raw w s).2).software.1 = false ∧
        Others (port s) (port (raw w s).2) 0x5eb#32 0x1#32 0x9b0#32 0x804b#32) ∨
    ((raw w s).1.1 = -1 ∧ port (raw w s).2 = port s) := by
  have he : raw w s = (((change w rawSettings s).1, none), (change w rawSettings s).2) := by simp [raw, ht]
  rw [he]
  simp only []
  rcases change_port hw rawSettings s with ⟨h0, hp⟩ | ⟨h0, hp⟩
  · refine Or.inl ⟨h0, ?_⟩
    rw [hp]
    have hi : ∀ n ∈ [0, 1, 3, 5, 6, 7, 8, 10], (rawSettings (port s)).iflag.getLsbD n = false := by
      intro n hn
      simp only [rawSettings]
      rw [BitVec.getLsbD_and, show (~~~cooked).getLsbD n = false by clear * - hn; revert n; decide, Bool.and_false]
    have hc : ∀ n ∈ [4, 5, 7, 11], (rawSettings (port s)).cflag.getLsbD n = true := by
      intro n hn
      simp only [rawSettings]
      rw [BitVec.getLsbD_or, show (0x30#32 ||| CREAD ||| CLOCAL).getLsbD n = true by clear * - hn; revert n; decide, Bool.or_true]
    have h8 : (rawSettings (port s)).cflag.getLsbD 8 = false := by
      simp only [rawSettings]
      rw [bit_of (by decide)]; decide
    refine ⟨⟨?_, ?_, hc 7 (by decide), ?_, rfl, rfl⟩, ?_, ?_, hc 11 (by decide), hi 10 (by decide), ?_, ?_, ?_, ?_, ?_⟩
    · intro n hn
      exact hi n (by clear * - hn; revert n; decide)
    · simp only [rawSettings]
      rw [BitVec.getLsbD_and, show (~~~OPOST).getLsbD 0 = false by decide, Bool.and_false]
    · intro n hn
      simp only [rawSettings]
      rw [BitVec.getLsbD_and, show (~~~local').getLsbD n = false by clear * - hn; revert n; decide, Bool.and_false]
    · unfold Termios.databits
      rw [hc 4 (by decide), hc 5 (by decide)]; rfl
    · unfold Termios.odd
      rw [h8]; rfl
    · exact masked_and (by decide)
    · exact masked_and (by decide)
    · exact masked_eq (by decide) (by decide)
    · exact masked_and (by decide)
    · intro n h5 h6
      simp [rawSettings, VMIN, VTIME, h5, h6]
  · exact Or.inr ⟨h0, hp⟩

/-- A terminal that becomes raw. -/
example : (raw sound (true, opened)).1 = (0, none) ∧ (raw sound (true, opened)).2.2.rate = some 9600 ∧ opened.lflag.getLsbD 3 = true ∧ (raw sound (true, opened)).2.2.lflag.getLsbD 3 = false := by decide

/-- C111.  The state of the carrier is told, with one or zero, and nothing else but minus one. -/
theorem serial_status {σ : Type} (w : World σ) (s s' : σ) (ht : w.isatty s = true) (v : Option (BitVec 32)) (h : w.lines s = (v, s')) :
    (status w s).2 = s' ∧ (v = none → (status w s).1.1 = -1) ∧ ∀ x, v = some x → (status w s).1.1 = if x.getLsbD 6 then 1 else 0 := by
  simp only [status, ht, h, if_true]
  cases v with
  | none => exact ⟨rfl, fun _ => rfl, fun x hx => by cases hx⟩
  | some x =>
    refine ⟨rfl, (by intro hx; cases hx), fun y hy => ?_⟩
    injection hy with hy; subst hy
    have hx : x &&& TIOCM_CD = 0#32 ↔ x.getLsbD 6 = false := by
      constructor
      · intro h
        have := congrArg (fun v => v.getLsbD 6) h
        rw [show ((0#32).getLsbD 6) = false by decide] at this
        simpa only [BitVec.getLsbD_and, show TIOCM_CD.getLsbD 6 = true by decide, Bool.and_true] using this
      · intro h
        apply BitVec.eq_of_getLsbD_eq
        intro i hi
        rw [BitVec.getLsbD_and]
        by_cases h6 : i = 6
        · subst h6; rw [h]; rfl
        · have : ∀ i < 32, i ≠ 6 → TIOCM_CD.getLsbD i = false := by decide
          rw [this i hi h6]; simp
    cases hb : x.getLsbD 6 with
    | true =>
      have : ¬ (x &&& TIOCM_CD = 0#32) := by rw [hx, hb]; simp
      simp [this]
    | false =>
      have : x &&& TIOCM_CD = 0#32 := hx.mpr hb
      simp [this]

/-- C111.  The number of bytes that are available, and waiting for the carrier. -/
theorem serial_available {σ : Type} (w : World σ) (s : σ) (ht : w.isatty s = true) :
    (available w s).2 = (w.pending s).2 ∧ ((w.pending s).1 = none → (available w s).1.1 = -1) ∧ (∀ n : Nat, n < 2 ^ 31 → (w.pending s).1 = some (BitVec.ofNat 32 n) → (available w s).1.1 = n) ∧
    (wait w s).2 = (w.wait s).2 ∧ (wait w s).1.1 = (if (w.wait s).1 then 0 else -1) ∧ valid w s = 1 := by
  rcases hp : w.pending s with ⟨v, s'⟩
  rcases hw : w.wait s with ⟨b, s''⟩
  simp only [available, wait, valid, ht, hp, hw, if_true]
  refine ⟨?_, ?_, ?_, ?_, ?_, trivial⟩
  · cases v <;> rfl
  · rintro rfl; rfl
  · rintro n hn rfl
    simp only []
    rw [BitVec.toInt_eq_toNat_of_lt] <;> rw [BitVec.toNat_ofNat] <;> omega
  · cases b <;> rfl
  · cases b <;> rfl

/-- The carrier is there, and seven bytes. -/
example : (status sound (true, opened)).1.1 = 1 ∧ (available sound (true, opened)).1.1 = 7 ∧ (wait sound (true, opened)).1.1 = 0 ∧ valid sound (true, opened) = 1 := by decide

end Diminuto.Serial
