import Verif.Serial

/-!
# What the settings of a serial port mean
-/

namespace Diminuto.Serial

/-- The rates, in the order of their numbers, of which the kernel makes use. -/
def rates : List Nat := [0, 50, 75, 110, 134, 150, 200, 300, 600, 1200, 1800, 2400, 4800, 9600, 19200, 38400, 57600, 115200, 230400]

/-- The rate is encoded by the four least significant bits, and by another one for those after the first sixteen. -/
def Termios.rate (t : Termios) : Option Nat :=
  let n := (if t.cflag.getLsbD 0 then 1 else 0) + (if t.cflag.getLsbD 1 then 2 else 0) + (if t.cflag.getLsbD 2 then 4 else 0) + (if t.cflag.getLsbD 3 then 8 else 0)
  rates[n + if t.cflag.getLsbD 12 then 15 else 0]?

/-- The number of data bits. -/
def Termios.databits (t : Termios) : Int := 5 + (if t.cflag.getLsbD 4 then 1 else 0) + (if t.cflag.getLsbD 5 then 2 else 0)

/-- The parity, if there is any: odd or not. -/
def Termios.odd (t : Termios) : Option Bool := if t.cflag.getLsbD 8 then some (t.cflag.getLsbD 9) else none

/-- The number of stop bits. -/
def Termios.stopbits (t : Termios) : Int := if t.cflag.getLsbD 6 then 2 else 1

/-- The modem lines are taken notice of, and hung up after the last close. -/
def Termios.modem (t : Termios) : Prop := t.cflag.getLsbD 11 = false ∧ t.cflag.getLsbD 10 = true

/-- The modem lines are ignored, and not hung up. -/
def Termios.direct (t : Termios) : Prop := t.cflag.getLsbD 11 = true ∧ t.cflag.getLsbD 10 = false

/-- Flow control with characters, of the output and of the input. -/
def Termios.software (t : Termios) : Bool × Bool := (t.iflag.getLsbD 10, t.iflag.getLsbD 12)

/-- Flow control with modem lines. -/
def Termios.hardware (t : Termios) : Bool := t.cflag.getLsbD 31

/-- Characters are received, and delivered one by one, and none of them has a meaning for the terminal driver. -/
def Termios.uncooked (t : Termios) : Prop :=
  (∀ i ∈ [0, 1, 3, 5, 6, 7, 8], t.iflag.getLsbD i = false) ∧ t.oflag.getLsbD 0 = false ∧ t.cflag.getLsbD 7 = true ∧ (∀ i ∈ [0, 1, 3, 6, 15], t.lflag.getLsbD i = false) ∧ t.cc 5 = 0#8 ∧ t.cc 6 = 1#8

/-- What may be asked for. -/
def Askable (bitspersecond databits stopbits : Int) : Prop :=
  (bitspersecond = -1 ∨ ∃ r ∈ rates, bitspersecond = (r : Int)) ∧ (5 ≤ databits ∧ databits ≤ 8) ∧ (stopbits = 1 ∨ stopbits = 2)

/-- The port is set as it has been asked for. -/
structure Meets (t : Termios) (databits paritybit stopbits modemcontrol xonxoff rtscts : Int) : Prop where
  databits : t.databits = databits
  parity : t.odd = if paritybit = 0 then none else some (decide (¬ (2 : Int) ∣ paritybit))
  stopbits : t.stopbits = stopbits
  modem : modemcontrol ≠ 0 → t.modem
  direct : modemcontrol = 0 → t.direct
  software : t.software = (decide (xonxoff ≠ 0), decide (xonxoff ≠ 0))
  hardware : t.hardware = decide (rtscts ≠ 0)
  uncooked : t.uncooked

/-- What may differ is in the given bits of the modes, and in the two control characters. -/
structure Others (t u : Termios) (i o c l : BitVec 32) : Prop where
  iflag : u.iflag &&& ~~~i = t.iflag &&& ~~~i
  oflag : u.oflag &&& ~~~o = t.oflag &&& ~~~o
  cflag : u.cflag &&& ~~~c = t.cflag &&& ~~~c
  lflag : u.lflag &&& ~~~l = t.lflag &&& ~~~l
  cc : ∀ n, n ≠ 5 → n ≠ 6 → u.cc n = t.cc n

/-- A system of which the port has the settings that `port` tells: reading them tells them, setting them sets all of them or fails, and nothing else does. -/
structure Faithful {σ : Type} (w : World σ) (port : σ → Termios) : Prop where
  got : ∀ s t s', w.get s = (some t, s') → t = port s
  get : ∀ s, port (w.get s).2 = port s
  set : ∀ s t s', w.set t s = (true, s') → port s' = t
  unset : ∀ s t s', w.set t s = (false, s') → port s' = port s
  flush : ∀ s, port (w.flush s).2 = port s

/-- What the standard promises of a system: that setting succeeds if *any* of what has been asked for could be done. -/
structure Standard {σ : Type} (w : World σ) (port : σ → Termios) : Prop where
  got : ∀ s t s', w.get s = (some t, s') → t = port s
  get : ∀ s, port (w.get s).2 = port s
  set : ∀ s t s', w.set t s = (true, s') → (port s').iflag = t.iflag ∨ (port s').oflag = t.oflag ∨ (port s').cflag = t.cflag ∨ (port s').lflag = t.lflag ∨ (port s').cc = t.cc
  unset : ∀ s t s', w.set t s = (false, s') → port s' = port s
  flush : ∀ s, port (w.flush s).2 = port s

/-- The state of a port: whether it is a terminal, and its settings. -/
abbrev Port := Bool × Termios

/-- A serial port that works. -/
def sound : World Port where
  isatty s := s.1
  get s := (some s.2, s)
  set t s := (true, (s.1, t))
  flush s := (true, s)
  wait s := (true, s)
  lines s := (some 0x40#32, s)
  pending s := (some 7#32, s)

/-- A serial port that does not support any other number of bits, parity, and rate than it has. -/
def stubborn : World Port := { sound with set := fun t s => (true, (s.1, { t with cflag := s.2.cflag })) }

/-- A terminal as it is after it has been opened. -/
def opened : Termios := { iflag := 0x500#32, oflag := 0x5#32, cflag := 0xcbd#32, lflag := 0x8a3b#32, cc := fun _ => 3#8, ispeed := 0xd#32, ospeed := 0xd#32 }

end Diminuto.Serial
