import Verif.SerialtoolLemmas
import Verif.SerialtoolLemmas2
import Verif.SerialtoolLemmas3

/-!
# The tool for serial ports
-/

namespace Diminuto.Serialtool

section
variable {σ : Type} (a : Api σ)

/-! ## C147: the options and the port -/

/-- C147.  With `-?` nothing is done but to exit with one.  Otherwise the tool prepares the port and runs with what the last of the options with a say have asked for, which is determined. -/
theorem serialtool_options (patience : Nat) (opts : List Opt) (k : σ) :
    (.menu ∈ opts → main a patience opts k = .exit 1 (.start k)) ∧
    (.menu ∉ opts → ∃ c, Asked opts c ∧ (∀ d, Asked opts d → d = c) ∧
      (prepare a c k = none → main a patience opts k = .fatal (.start k)) ∧ ∀ k', prepare a c k = some k' → main a patience opts k = run a c patience (.start k')) := by
  constructor
  · intro hm
    unfold main
    rw [options_none opts .start hm]
  · intro hm
    obtain ⟨c, hc⟩ := options_some opts .start hm
    refine ⟨c, options_asked hc, fun d hd => asked_unique hd (options_asked hc), ?_, ?_⟩
    · intro hp; unfold main; rw [hc]; simp only [hp]
    · intro k' hp; unfold main; rw [hc]; simp only [hp]

theorem main_run {opts : List Opt} {c : Config} (hm : .menu ∉ opts) (ha : Asked opts c) {k k' : σ} (hp : prepare a c k = some k') (patience : Nat) :
    main a patience opts k = run a c patience (.start k') := by
  unfold main
  rw [asked_options hm ha]; simp only [hp]

/-- `-7 -b 9600 -7 -b 19200 -N -B -D x`. -/
example : ∃ c, Asked [.seven, .rate [57, 54, 48, 48], .eight, .rate [49, 57, 50, 48, 48], .interactive, .backward, .device [120]] c ∧
    c.bitspersecond = 19200 ∧ c.databits = 8 ∧ c.device = [120] ∧ c.backward = true ∧ c.nonblocking = true := by
  refine ⟨_, options_asked (opts := [.seven, .rate [57, 54, 48, 48], .eight, .rate [49, 57, 50, 48, 48], .interactive, .backward, .device [120]]) rfl, ?_⟩
  decide

/-- C147.  Claimed: the port has the rate, the data bits, the parity, the stop bits, the modem control and the flow control that have been asked for.  Shown here: once a terminal has been prepared, it is raw, and has the rate, the stop bits and the hardware flow control that have been asked for, and the
software flow control of the input; and all of it if eight data bits without parity, without modem control and without software flow control have been asked for. -/
theorem serialtool_port_partial (port : σ → Serial.Termios) (hw : Serial.Faithful a.port port) (hr : ∀ k, port (a.raw k).2 = port k) (c : Config) (k k' : σ) (h : prepare a c k = some k')
    (ht : a.port.isatty (a.flags c.nonblocking (a.open_ c.device c.nonblocking k).2).2 = true) :
    (port k').uncooked ∧ (c.bitspersecond ≠ -1 → (port k').rate = some c.bitspersecond.toNat ∧ ∃ r ∈ Serial.rates, c.bitspersecond = (r : Int)) ∧ (port k').stopbits = c.stopbits ∧
    (port k').hardware = c.rtscts ∧ (port k').software.2 = c.xonxoff ∧
    (c.databits = 8 → c.paritybit = 0 → c.modemcontrol = false → c.xonxoff = false → Serial.Meets (port k') c.databits c.paritybit c.stopbits 0 0 (if c.rtscts then 1 else 0)) := by
  obtain ⟨k1, k2, h1, h2, h3⟩ := prepare_some a h
  rw [h1] at ht
  simp only [] at ht
  rw [h2] at ht
  rcases h3 with ⟨-, k3, k4, k5, k6, e, e', -, -, h5, h6, h7⟩ | ⟨hf, -, -⟩
  · rw [finished_port a hr h7]
    obtain ⟨g1, g2, g3, g4, g5, g6, g7, g8, g9⟩ := port_after a.port port hw h5 h6
    have ha := (set_zero a.port h5).1
    have hb : ∀ b : Bool, decide ((if b = true then (1 : Int) else 0) ≠ 0) = b := by decide
    rw [hb] at g3 g5 g9
    refine ⟨g4, ?_, g2, g3, by rw [g5], ?_⟩
    · intro hn
      rw [if_neg hn] at g1
      refine ⟨g1, ?_⟩
      rcases ha.1 with h | h
      · exact absurd h hn
      · exact h
    · intro hd hp hmo hx
      rw [hmo] at g9
      rw [hx] at g5
      constructor
      · rw [g6, hd]
      · rw [g7, hp]; rfl
      · exact g2
      · intro h0; exact absurd rfl h0
      · intro _; exact ⟨g8, g9⟩
      · rw [g5]; rfl
      · rw [g3, hb]
      · exact g4
  · change a.port.isatty k2 = true at ht
    rw [hf] at ht; cases ht

/-- C147, refuted.  Whatever has been asked for, the port has eight data bits and no parity, ignores the modem lines, and does not heed XON and XOFF, since raw mode is set after everything else. -/
theorem serialtool_raw_counterexample (port : σ → Serial.Termios) (hw : Serial.Faithful a.port port) (hr : ∀ k, port (a.raw k).2 = port k) (c : Config) (k k' : σ) (h : prepare a c k = some k')
    (ht : a.port.isatty (a.flags c.nonblocking (a.open_ c.device c.nonblocking k).2).2 = true) :
    (port k').databits = 8 ∧ (port k').odd = none ∧ ¬ (port k').modem ∧ (port k').software.1 = false ∧ (c.modemcontrol = true → ¬ (port k').direct) := by
  obtain ⟨k1, k2, h1, h2, h3⟩ := prepare_some a h
  rw [h1] at ht
  simp only [] at ht
  rw [h2] at ht
  rcases h3 with ⟨-, k3, k4, k5, k6, e, e', -, -, h5, h6, h7⟩ | ⟨hf, -, -⟩
  · rw [finished_port a hr h7]
    obtain ⟨g1, g2, g3, g4, g5, g6, g7, g8, g9⟩ := port_after a.port port hw h5 h6
    refine ⟨g6, g7, ?_, by rw [g5], ?_⟩
    · rintro ⟨h8, -⟩; rw [g8] at h8; cases h8
    · intro hm
      rintro ⟨-, h9⟩
      rw [g9, hm] at h9; cases h9
  · change a.port.isatty k2 = true at ht
    rw [hf] at ht; cases ht

/-- C147.  The tool aborts, before anything is sent or received, if the port cannot be opened, if it is a terminal and the rate is none that there is, and with `-T` if it is not a terminal. -/
theorem serialtool_refuses {opts : List Opt} {c : Config} (hm : .menu ∉ opts) (ha : Asked opts c) (patience : Nat) (k : σ) :
    ((a.open_ c.device c.nonblocking k).1 = false → main a patience opts k = .fatal (.start k)) ∧
    (c.bitspersecond ≠ -1 → (∀ r ∈ Serial.rates, c.bitspersecond ≠ (r : Int)) → a.port.isatty (a.flags c.nonblocking (a.open_ c.device c.nonblocking k).2).2 = true → main a patience opts k = .fatal (.start k)) ∧
    (c.onlyaterminal = true → a.port.isatty (a.flags c.nonblocking (a.open_ c.device c.nonblocking k).2).2 = false → main a patience opts k = .fatal (.start k)) := by
  have key : (∀ k', prepare a c k ≠ some k') → main a patience opts k = .fatal (.start k) := by
    intro h
    unfold main
    rw [asked_options hm ha]
    cases hp : prepare a c k with
    | none => simp only [hp]
    | some k' => exact absurd hp (h k')
  refine ⟨fun h => key fun k' hp => ?_, fun h1 h2 h3 => key fun k' hp => ?_, fun h1 h2 => key fun k' hp => ?_⟩
  · obtain ⟨k1, k2, g1, -⟩ := prepare_some a hp
    rw [g1] at h; cases h
  · obtain ⟨k1, k2, g1, g2, g3⟩ := prepare_some a hp
    rw [g1] at h3
    simp only [] at h3
    rw [g2] at h3
    rcases g3 with ⟨-, k3, k4, k5, k6, e, e', -, -, h5, -, -⟩ | ⟨hf, -, -⟩
    · rcases (set_zero a.port h5).1.1 with h | ⟨r, hr, h⟩
      · exact h1 h
      · exact h2 r hr h
    · change a.port.isatty k2 = true at h3
      rw [hf] at h3; cases h3
  · obtain ⟨k1, k2, g1, g2, g3⟩ := prepare_some a hp
    rw [g1] at h2
    simp only [] at h2
    rw [g2] at h2
    rcases g3 with ⟨hf, -⟩ | ⟨-, hf, -⟩
    · change a.port.isatty k2 = false at h2
      rw [hf] at h2; cases h2
    · rw [h1] at hf; cases hf

end

theorem bench_faithful : Serial.Faithful bench.port (fun k => k.port.2) where
  got := by intro s t s' h; simp only [bench, Prod.mk.injEq, Option.some.injEq] at h; exact h.1.symm
  get := fun _ => rfl
  set := by intro s t s' h; simp only [bench, Prod.mk.injEq] at h; rw [← h.2]
  unset := by intro s t s' h; simp [bench] at h
  flush := fun _ => rfl

/-- The state in which a run ends or is still going on. -/
def Outcome.state {σ : Type} : Outcome σ → State σ
  | .exit _ s => s
  | .busy s => s
  | .fatal s => s

/-- `-b 9600 -2 -h`: the port is prepared with this. -/
example : Serial.Faithful bench.port (fun k => k.port.2) ∧ (∀ k, (bench.raw k).2.port.2 = k.port.2) ∧
    (main bench 0 [.rate [57, 54, 48, 48], .two, .hardware] (.start true [])).state.kernel.port.2.rate = some 9600 ∧
    (main bench 0 [.rate [57, 54, 48, 48], .two, .hardware] (.start true [])).state.kernel.port.2.stopbits = 2 ∧
    (main bench 0 [.rate [57, 54, 48, 48], .two, .hardware] (.start true [])).state.kernel.port.2.hardware = true := by
  refine ⟨bench_faithful, fun _ => rfl, ?_, ?_, ?_⟩ <;> decide

/-- C147, refuted.  `-7 -e -m -s` ends up as eight bits without parity, with the modem lines ignored, and with half of the software flow control. -/
theorem serialtool_port_counterexample :
    (main bench 0 [.seven, .even, .modem, .software] (.start true [])).state.kernel.port.2.databits = 8 ∧ (main bench 0 [.seven, .even, .modem, .software] (.start true [])).state.kernel.port.2.odd = none ∧
    (main bench 0 [.seven, .even, .modem, .software] (.start true [])).state.kernel.port.2.cflag.getLsbD 11 = true ∧
    (main bench 0 [.seven, .even, .modem, .software] (.start true [])).state.kernel.port.2.software = (false, true) := by decide

/-- C147, refuted for arguments that are no numbers, or too large.  `-b fast` sets the rate to zero, which hangs up, and `-b 4294976896` to 9600. -/
theorem serialtool_rate_counterexample :
    (main bench 0 [.rate [102, 97, 115, 116]] (.start true [])).state.kernel.port.2.rate = some 0 ∧
    (main bench 0 [.rate [52, 50, 57, 52, 57, 55, 54, 56, 57, 54]] (.start true [])).state.kernel.port.2.rate = some 9600 := by decide

/-- C147, refuted.  `-N` disables `-B`, and `-c` forbids it, says the help; but `-N -B -c` tests the loop back. -/
theorem serialtool_modes_counterexample :
    (main bench 4 [.interactive, .backward, .carrier] (.start true [some 0, some 1])).state.log = [.put 0 true, .got (some 0), .put 1 true, .got (some 1)] := by decide

section
variable {σ : Type} (a : Api σ)

/-! ## C148: loop back -/

/-- The stream is there, or the tool aborts before anything is sent or received. -/
theorem stream_cases (k : σ) (rest : State σ → Outcome σ) :
    (a.port.isatty (a.stream k).2 = true ∧ stream a (.start k) rest = rest (.start (a.unbuffer (a.stream k).2).2)) ∨ ∃ s, stream a (.start k) rest = .fatal s ∧ s.log = [] := by
  unfold stream
  rcases h1 : a.stream k with ⟨o1, k1⟩
  simp only [State.start, h1]
  cases o1 with
  | false => exact Or.inr ⟨_, rfl, rfl⟩
  | true =>
    simp only []
    cases h2 : a.port.isatty k1 with
    | false => rw [if_neg (by simp)]; exact Or.inr ⟨_, rfl, rfl⟩
    | true =>
      rw [if_pos rfl]
      cases h3 : (a.unbuffer k1).1 with
      | false => rw [if_neg (by simp)]; exact Or.inr ⟨_, rfl, rfl⟩
      | true => rw [if_pos rfl]; exact Or.inl ⟨rfl, rfl⟩

/-- C148.  `-F` sends back each character as soon as it is received, and nothing else, reports their number at each multiple that was asked for, and ends only when there is nothing more to be received, or with a signal.  Whatever it has logged has been done. -/
theorem serialtool_forward {opts : List Opt} {c : Config} (hm : .menu ∉ opts) (ha : Asked opts c) (hf : c.forward = true) {k k' : σ} (hp : prepare a c k = some k') (patience : Nat) :
    (∀ code s, main a patience opts k = .exit code s → code = 0 ∧ Plays a c s.log (a.unbuffer (a.stream k').2).2 s.kernel ∧
      ((Echo c.modulo s.count s.log ∧ a.done s.kernel = true) ∨ EchoEnds c.modulo s.count s.log)) ∧
    (∀ s, main a patience opts k = .busy s → Plays a c s.log (a.unbuffer (a.stream k').2).2 s.kernel ∧ (Echo c.modulo s.count s.log ∨ EchoEnds c.modulo s.count s.log)) ∧
    (∀ s, main a patience opts k = .fatal s → s.log = []) := by
  rw [main_run a hm ha hp]
  unfold run
  rw [if_pos hf]
  rcases stream_cases a k' (forward a c patience) with ⟨-, h⟩ | ⟨s, h, hl⟩
  · rw [h]
    have := forward_echoes a c (a.unbuffer (a.stream k').2).2 hf patience (.start (a.unbuffer (a.stream k').2).2) rfl .nil .start
    revert this
    cases forward a c patience (.start (a.unbuffer (a.stream k').2).2) with
    | exit code s => intro this; refine ⟨?_, (by intro s h; cases h), (by intro s h; cases h)⟩; intro code' s' he; injection he with h1 h2; subst h1 h2; exact this
    | busy s => intro this; refine ⟨(by intro c s h; cases h), ?_, (by intro s h; cases h)⟩; intro s' he; injection he with h2; subst h2; exact this
    | fatal s => intro this; exact this.elim
  · rw [h]
    refine ⟨(by intro c s h; cases h), (by intro s h; cases h), ?_⟩
    intro s' he; injection he with he; rw [← he]; exact hl

/-- C148.  `-B` sends the characters of its pattern one after the other, each only after the one before has been received back, reports their number at each multiple that was asked for, and ends only with a character that is not the one that was sent, if none is received, or with a signal. -/
theorem serialtool_backward {opts : List Opt} {c : Config} (hm : .menu ∉ opts) (ha : Asked opts c) (hf : c.forward = false) (hb : c.backward = true) {k k' : σ} (hp : prepare a c k = some k') (patience : Nat) :
    (∀ code s, main a patience opts k = .exit code s → code = 0 ∧ Plays a c s.log (a.unbuffer (a.stream k').2).2 s.kernel ∧
      ((Test c.printable c.modulo false s.count s.log ∧ a.done s.kernel = true) ∨ TestEnds c.printable c.modulo s.count s.log)) ∧
    (∀ s, main a patience opts k = .busy s → Plays a c s.log (a.unbuffer (a.stream k').2).2 s.kernel ∧
      ((∃ w, Test c.printable c.modulo w s.count s.log) ∨ TestEnds c.printable c.modulo s.count s.log)) ∧
    (∀ s, main a patience opts k = .fatal s → s.log = []) := by
  rw [main_run a hm ha hp]
  unfold run
  rw [if_neg (by simp [hf]), if_pos hb]
  rcases stream_cases a k' (backward a c patience false (if c.printable then 0x21 else 0)) with ⟨-, h⟩ | ⟨s, h, hl⟩
  · rw [h]
    have := backward_tests a c (a.unbuffer (a.stream k').2).2 hf patience false (.start (a.unbuffer (a.stream k').2).2) rfl .nil .start
    rw [show pattern c.printable (State.start (a.unbuffer (a.stream k').2).2).count = if c.printable then 0x21#8 else 0#8 from pattern_zero _] at this
    revert this
    show Tests a c _ (backward a c patience false (if c.printable then 0x21 else 0) (.start (a.unbuffer (a.stream k').2).2)) → _
    cases backward a c patience false (if c.printable then 0x21 else 0) (.start (a.unbuffer (a.stream k').2).2) with
    | exit code s => intro this; refine ⟨?_, (by intro s h; cases h), (by intro s h; cases h)⟩; intro code' s' he; injection he with h1 h2; subst h1 h2; exact this
    | busy s => intro this; refine ⟨(by intro c s h; cases h), ?_, (by intro s h; cases h)⟩; intro s' he; injection he with h2; subst h2; exact this
    | fatal s => intro this; exact this.elim
  · rw [h]
    refine ⟨(by intro c s h; cases h), (by intro s h; cases h), ?_⟩
    intro s' he; injection he with he; rw [← he]; exact hl

/-- C148.  On a line that gives back what it has been given, `-B` goes on for ever, with as many characters as there is time for. -/
theorem serialtool_loopback {opts : List Opt} {c : Config} (hm : .menu ∉ opts) (ha : Asked opts c) (hf : c.forward = false) (hb : c.backward = true) {k k' : σ} (hp : prepare a c k = some k')
    {line : σ → Option Byte} (hl : Loopback a line) (ht : ∀ k, a.port.isatty k = true) (hs : ∀ k, (a.stream k).1 = true) (hu : ∀ k, (a.unbuffer k).1 = true) (n : Nat) :
    ∃ s, main a (2 * n) opts k = .busy s ∧ s.count = n ∧ Test c.printable c.modulo false n s.log := by
  rw [main_run a hm ha hp]
  unfold run
  rw [if_neg (by simp [hf]), if_pos hb]
  have hst : ∀ rest, stream a (.start k') rest = rest (.start (a.unbuffer (a.stream k').2).2) := by
    intro rest
    unfold stream
    rcases h1 : a.stream k' with ⟨o1, k1⟩
    have := hs k'
    rw [h1] at this
    simp only [] at this
    subst this
    simp only [State.start, h1, ht, if_true]
    rw [if_pos (hu k1)]
  rw [hst]
  obtain ⟨s, h1, h2, h3⟩ := backward_loopback a c hl n (.start (a.unbuffer (a.stream k').2).2) rfl .start
  have hn : s.count = n := by rw [h2]; exact Nat.zero_add n
  rw [show pattern c.printable (State.start (a.unbuffer (a.stream k').2).2).count = if c.printable then 0x21#8 else 0#8 from pattern_zero _] at h1
  rw [hn] at h3
  exact ⟨s, h1, hn, h3⟩

/-- C148, refuted for devices that are not terminals, which the tool supports: `-F` and `-B` always abort with them, before anything is sent or received. -/
theorem serialtool_stream_counterexample {opts : List Opt} {c : Config} (hm : .menu ∉ opts) (ha : Asked opts c) (hf : c.forward = true ∨ c.backward = true) {k k' : σ} (hp : prepare a c k = some k')
    (ht : a.port.isatty (a.stream k').2 = false) (patience : Nat) : ∃ s, main a patience opts k = .fatal s ∧ s.log = [] := by
  rw [main_run a hm ha hp]
  unfold run
  have key : ∀ rest, ∃ s, stream a (.start k') rest = .fatal s ∧ s.log = [] := by
    intro rest
    rcases stream_cases a k' rest with ⟨h, -⟩ | h
    · rw [ht] at h; cases h
    · exact h
  by_cases h1 : c.forward = true
  · rw [if_pos h1]; exact key _
  · rw [if_neg h1, if_pos (hf.resolve_left h1)]; exact key _

end

/-- `-F -M 2` with three characters, the last of which comes after `SIGHUP`, and then the end. -/
example : main bench 10 [.forward, .modulo [50]] { Bench.start true [some 65, some 66, none, some 67] with curious := true } =
    .exit 0 ⟨true, 3, false, false, (main bench 10 [.forward, .modulo [50]] { Bench.start true [some 65, some 66, none, some 67] with curious := true }).state.kernel,
      [.got (some 65), .put 65 true, .got (some 66), .put 66 true, .report .modulo 2, .got none, .report .curious 2, .got (some 67), .put 67 true, .got none, .report .eof 3]⟩ := by rfl

/-- A line that gives back what it has been given. -/
example : ∃ (a : Api (Option Byte)) (line : Option Byte → Option Byte), Loopback a line ∧ (∀ k, a.port.isatty k = true) ∧ (∀ k, (a.stream k).1 = true) ∧ (∀ k, (a.unbuffer k).1 = true) ∧
    ∃ c, Asked [.backward] c ∧ c.forward = false ∧ c.backward = true ∧ prepare a c none = some none := by
  refine ⟨{ port := { isatty := fun _ => true, get := fun k => (some Serial.opened, k), set := fun _ k => (true, k), flush := fun k => (true, k), wait := fun k => (true, k), lines := fun k => (none, k), pending := fun k => (none, k) }
            open_ := fun _ _ k => (true, k), flags := fun _ k => (true, k), exclusive := fun k => (true, k), flush := fun k => (true, k), raw := fun k => (true, k), stream := fun k => (true, k)
            unbuffer := fun k => (true, k), getc := fun _ k => (k, none), putc := fun b _ => (true, some b), wait := fun k => (none, k), read := fun _ _ k => (none, k), write := fun _ _ k => (none, k)
            done := fun _ => false, curious := fun _ => false, alarmed := fun _ => false, calm := id }, id, ⟨fun _ => rfl, fun _ _ => ⟨rfl, rfl⟩, fun _ _ => rfl⟩, fun _ => rfl, fun _ => rfl, fun _ => rfl,
    _, options_asked (opts := [.backward]) rfl, rfl, rfl, rfl⟩

/-- C148, refuted.  Claimed: the exit code tells whether the loop back has failed.  It is zero when a character is not the one that was sent, and when none is received. -/
theorem serialtool_exit_counterexample :
    (∃ s, main bench 10 [.backward] (.start true [some 0, some 7]) = .exit 0 s ∧ s.log = [.put 0 true, .got (some 0), .put 1 true, .got (some 7), .mismatch 7 1]) ∧
    (∃ s, main bench 10 [.backward] (.start true []) = .exit 0 s ∧ s.log = [.put 0 true, .got none, .report .eof 0]) :=
  ⟨⟨_, rfl, rfl⟩, ⟨_, rfl, rfl⟩⟩

/-- C148, refuted for characters that cannot be sent.  They are counted and reported by `-F` as the others are. -/
theorem serialtool_count_counterexample :
    ∃ s, main { bench with putc := fun _ k => (false, k) } 10 [.forward, .modulo [49]] (.start true [some 65]) = .exit 0 s ∧
      s.log = [.got (some 65), .put 65 false, .report .modulo 1, .got none, .report .eof 1] :=
  ⟨_, rfl, rfl⟩

section
variable {σ : Type} (a : Api σ)

/-! ## C149: interactive -/

/-- C149.  Claimed: whatever is read from the device is written to the standard output and whatever is read from the standard input is written to the device, all of it, at once and in order, until a signal, the end of the device, or the end of the standard input, which with `-P` does not end it but is not read any
longer; and then the tool exits with zero.  Shown here: whatever is logged has been done; a run that exits or is still going on has done just this; and one that aborts has too, up to the last action, which is the one that failed, unless the standard input is not used. -/
theorem serialtool_interactive_partial {opts : List Opt} {c : Config} (hm : .menu ∉ opts) (ha : Asked opts c) (hf : c.forward = false) (hb : c.backward = false) (hx : 0 < c.maximum) {k k' : σ} (hp : prepare a c k = some k')
    (patience : Nat) :
    (∀ code s, main a patience opts k = .exit code s → code = 0 ∧ c.noinput = false ∧ Plays a c s.log k' s.kernel ∧ ((∃ i r, Copies c i r s.log ∧ a.done s.kernel = true) ∨ Quits c s.log)) ∧
    (∀ s, main a patience opts k = .busy s → Plays a c s.log k' s.kernel ∧ ((∃ i r, Copies c i r s.log) ∨ Quits c s.log)) ∧
    (∀ s, main a patience opts k = .fatal s → Plays a c s.log k' s.kernel ∧ (Fails c s.log ∨ (c.noinput = true ∧ ((∃ i r, Copies c i r s.log ∧ a.done s.kernel = true) ∨ Quits c s.log)))) := by
  rw [main_run a hm ha hp]
  unfold run
  rw [if_neg (by simp [hf]), if_neg (by simp [hb])]
  have := interactive_mux a c k' patience hx
  revert this
  cases interactive a c patience (.start k') with
  | exit code s => intro this; refine ⟨?_, (by intro s h; cases h), (by intro s h; cases h)⟩; intro code' s' he; injection he with h1 h2; subst h1 h2; exact this
  | busy s => intro this; refine ⟨(by intro c s h; cases h), ?_, (by intro s h; cases h)⟩; intro s' he; injection he with h2; subst h2; exact this
  | fatal s => intro this; refine ⟨(by intro c s h; cases h), (by intro s h; cases h), ?_⟩; intro s' he; injection he with h2; subst h2; exact this

/-- C149.  In a run that exits or is still going on, what has been written to the one end is what has been read from the other. -/
theorem serialtool_copies {opts : List Opt} {c : Config} (hm : .menu ∉ opts) (ha : Asked opts c) (hf : c.forward = false) (hb : c.backward = false) (hx : 0 < c.maximum) {k k' : σ} (hp : prepare a c k = some k')
    (patience : Nat) (s : State σ) (h : (∃ code, main a patience opts k = .exit code s) ∨ main a patience opts k = .busy s) :
    outgoing .terminal s.log = incoming .device s.log ∧ outgoing .device s.log = incoming .terminal s.log := by
  have key : (∃ i r, Copies c i r s.log) ∨ Quits c s.log := by
    obtain ⟨h1, h2, -⟩ := serialtool_interactive_partial a hm ha hf hb hx hp patience
    rcases h with ⟨code, h⟩ | h
    · rcases (h1 code s h).2.2.2 with ⟨i, r, hc, -⟩ | hq
      · exact Or.inl ⟨i, r, hc⟩
      · exact Or.inr hq
    · exact (h2 s h).2
  rcases key with ⟨i, r, hc⟩ | hq
  · exact ⟨copies_equal hc .device, copies_equal hc .terminal⟩
  · exact ⟨quits_equal hq .device, quits_equal hq .terminal⟩

/-- C149, refuted with `-i`.  The tool never exits: at the end it takes the standard input from the multiplexer, although it is not there, and aborts. -/
theorem serialtool_noinput_counterexample {opts : List Opt} {c : Config} (hm : .menu ∉ opts) (ha : Asked opts c) (hf : c.forward = false) (hb : c.backward = false) (hi : c.noinput = true) (k : σ) (patience code : Nat)
    (s : State σ) : main a patience opts k ≠ .exit code s := by
  intro h
  cases hp : prepare a c k with
  | none =>
    unfold main at h
    rw [asked_options hm ha] at h
    simp only [hp] at h
    cases h
  | some k' =>
    by_cases hx : 0 < c.maximum
    · have := ((serialtool_interactive_partial a hm ha hf hb hx hp patience).1 code s h).2.1
      rw [hi] at this; cases this
    · rw [main_run a hm ha hp] at h
      unfold run interactive at h
      rw [if_neg (by simp [hf]), if_neg (by simp [hb]), if_pos (by omega)] at h
      cases h

end

/-- Two characters are received, and then the device ends; with `-i` the tool aborts in the end. -/
example : (∃ s, main bench 10 [] (.start false [some 65, some 66]) = .exit 0 s ∧ s.kernel.sent = [65, 66] ∧ outgoing .terminal s.log = [65, 66] ∧ incoming .device s.log = [65, 66]) ∧
    (∃ s, main bench 10 [.noinput] (.start false [some 65, some 66]) = .fatal s ∧ s.kernel.sent = [65, 66]) ∧
    (∃ c, Asked [.noinput] c ∧ c.noinput = true ∧ c.forward = false ∧ c.backward = false ∧ 0 < c.maximum) :=
  ⟨⟨_, rfl, rfl, rfl, rfl⟩, ⟨_, rfl, rfl⟩, ⟨_, options_asked (opts := [.noinput]) rfl, rfl, rfl, rfl, by decide⟩⟩

/-- C149, refuted.  `SIGHUP`, which is for a report in the other modes, ends this one, because it interrupts waiting; and data of which the device takes only a part for now, as it may with `-O`, make the tool abort, with the rest lost. -/
theorem serialtool_interrupted_counterexample :
    (∃ s, main { bench with wait := fun k => (none, { k with curious := true }) } 10 [] (.start true [some 65]) = .exit 0 s ∧ s.kernel.done = false ∧ s.log = [.waited none]) ∧
    (∃ s, main { bench with wait := fun k => (some [.terminal], k), read := fun _ _ k => (some [65, 66], k), write := fun _ _ k => (some 1, k) } 10 [.nonblocking] (.start true []) = .fatal s ∧
      s.log = [.waited (some [.terminal]), .read .terminal (some [65, 66]), .wrote .device [65, 66] (some 1)]) :=
  ⟨⟨_, rfl, rfl, rfl⟩, ⟨_, rfl, rfl⟩⟩

/-- C149, refuted for `-I 0`, which makes the tool abort, and so does `-I` with an argument that is not a number. -/
theorem serialtool_maximum_counterexample :
    (∃ s, main bench 10 [.maximum [48]] (.start true [some 65]) = .fatal s ∧ s.log = []) ∧ (∃ s, main bench 10 [.maximum [120]] (.start true [some 65]) = .fatal s ∧ s.log = []) :=
  ⟨⟨_, rfl, rfl⟩, ⟨_, rfl, rfl⟩⟩

end Diminuto.Serialtool
