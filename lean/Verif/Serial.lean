import Verif.Fletcher

/-!
# Model of the Serial feature
-/

namespace Diminuto.Serial

/-- The errors that the feature itself stores in `errno`, `Diminuto/src/diminuto_serial.c:102` and `:176`. -/
inductive Errno where
  | invalid | notty
deriving DecidableEq

/-- `struct termios` of the GNU C library on Linux, without the line discipline: the flags, the control characters, and the two speeds. -/
structure Termios where
  iflag : BitVec 32
  oflag : BitVec 32
  cflag : BitVec 32
  lflag : BitVec 32
  cc : Nat → BitVec 8
  ispeed : BitVec 32
  ospeed : BitVec 32

/-! The constants of `<termios.h>` on Linux, for all the processors that use the generic ones. -/

/-- `IGNBRK | BRKINT | PARMRK | ISTRIP | INLCR | IGNCR | ICRNL | IXON`, of the generic `<termios.h>`, as used at `Diminuto/src/diminuto_serial.c:254`. -/
def cooked : BitVec 32 := 0x1#32 ||| 0x2#32 ||| 0x8#32 ||| 0x20#32 ||| 0x40#32 ||| 0x80#32 ||| 0x100#32 ||| 0x400#32
/-- `IXON`, `Diminuto/src/diminuto_serial.c:158`. -/
def IXON : BitVec 32 := 0x400#32
/-- `IXOFF`, `Diminuto/src/diminuto_serial.c:159`. -/
def IXOFF : BitVec 32 := 0x1000#32
/-- `OPOST`, `Diminuto/src/diminuto_serial.c:187`. -/
def OPOST : BitVec 32 := 0x1#32
/-- `CSIZE`, `Diminuto/src/diminuto_serial.c:188`. -/
def CSIZE : BitVec 32 := 0x30#32
/-- `CSTOPB`, `Diminuto/src/diminuto_serial.c:140`. -/
def CSTOPB : BitVec 32 := 0x40#32
/-- `CREAD`, `Diminuto/src/diminuto_serial.c:194`. -/
def CREAD : BitVec 32 := 0x80#32
/-- `PARENB`, `Diminuto/src/diminuto_serial.c:130`. -/
def PARENB : BitVec 32 := 0x100#32
/-- `PARODD`, `Diminuto/src/diminuto_serial.c:130`. -/
def PARODD : BitVec 32 := 0x200#32
/-- `HUPCL`, `Diminuto/src/diminuto_serial.c:151`. -/
def HUPCL : BitVec 32 := 0x400#32
/-- `CLOCAL`, `Diminuto/src/diminuto_serial.c:153`. -/
def CLOCAL : BitVec 32 := 0x800#32
/-- `CRTSCTS`, `Diminuto/src/diminuto_serial.c:166`. -/
def CRTSCTS : BitVec 32 := 0x80000000#32
/-- `ECHO | ECHONL | ICANON | ISIG | IEXTEN`, `Diminuto/src/diminuto_serial.c:189`. -/
def local' : BitVec 32 := 0x8#32 ||| 0x40#32 ||| 0x2#32 ||| 0x1#32 ||| 0x8000#32
/-- `VTIME`, `Diminuto/src/diminuto_serial.c:213`. -/
def VTIME : Nat := 5
/-- `VMIN`, `Diminuto/src/diminuto_serial.c:214`. -/
def VMIN : Nat := 6
/-- `TIOCM_CD`, `Diminuto/src/diminuto_serial.c:356`. -/
def TIOCM_CD : BitVec 32 := 0x40#32

/-- What the feature asks of the system, which may do anything that it likes. -/
structure World (σ : Type) where
  /-- `isatty(3)`. -/
  isatty : σ → Bool
  /-- `tcgetattr(3)`. -/
  get : σ → Option Termios × σ
  /-- `tcsetattr(3)` with `TCSANOW`. -/
  set : Termios → σ → Bool × σ
  /-- `tcflush(3)` with `TCIOFLUSH`. -/
  flush : σ → Bool × σ
  /-- `ioctl(2)` with `TIOCMIWAIT` and `TIOCM_CD`. -/
  wait : σ → Bool × σ
  /-- `ioctl(2)` with `TIOCMGET`. -/
  lines : σ → Option (BitVec 32) × σ
  /-- `ioctl(2)` with `FIONREAD`. -/
  pending : σ → Option (BitVec 32) × σ

/-- The speed, `Diminuto/src/diminuto_serial.c:39-105`: `none` is an error, and `some none` is none to set. -/
def speed (bitspersecond : Int) : Option (Option (BitVec 32)) :=
  if bitspersecond = -1 then some none
  else if bitspersecond = 0 then some (some 0x0#32)
  else if bitspersecond = 50 then some (some 0x1#32)
  else if bitspersecond = 75 then some (some 0x2#32)
  else if bitspersecond = 110 then some (some 0x3#32)
  else if bitspersecond = 134 then some (some 0x4#32)
  else if bitspersecond = 150 then some (some 0x5#32)
  else if bitspersecond = 200 then some (some 0x6#32)
  else if bitspersecond = 300 then some (some 0x7#32)
  else if bitspersecond = 600 then some (some 0x8#32)
  else if bitspersecond = 1200 then some (some 0x9#32)
  else if bitspersecond = 1800 then some (some 0xa#32)
  else if bitspersecond = 2400 then some (some 0xb#32)
  else if bitspersecond = 4800 then some (some 0xc#32)
  else if bitspersecond = 9600 then some (some 0xd#32)
  else if bitspersecond = 19200 then some (some 0xe#32)
  else if bitspersecond = 38400 then some (some 0xf#32)
  else if bitspersecond = 57600 then some (some 0x1001#32)
  else if bitspersecond = 115200 then some (some 0x1002#32)
  else if bitspersecond = 230400 then some (some 0x1003#32)
  else none

/-- The data bits, `Diminuto/src/diminuto_serial.c:107-125`. -/
def data (databits : Int) : Option (BitVec 32) :=
  if databits = 5 then some 0x0#32 else if databits = 6 then some 0x10#32 else if databits = 7 then some 0x20#32 else if databits = 8 then some 0x30#32 else none

/-- The parity, `Diminuto/src/diminuto_serial.c:127-133`. -/
def parity (paritybit : Int) : BitVec 32 := if paritybit = 0 then 0#32 else if paritybit.tmod 2 ≠ 0 then PARENB ||| PARODD else PARENB

/-- The stop bits, `Diminuto/src/diminuto_serial.c:135-147`. -/
def stop (stopbits : Int) : Option (BitVec 32) := if stopbits = 1 then some 0#32 else if stopbits = 2 then some CSTOPB else none

/-- `cfsetospeed(3)` followed by `cfsetispeed(3)`, as called at `Diminuto/src/diminuto_serial.c:203-210`.  They do not fail for any of the speeds above.  An input speed of zero is remembered by the
library in a bit of the input modes. -/
def setSpeed (t : Termios) (s : BitVec 32) : Termios :=
  let t := { t with cflag := t.cflag &&& ~~~(0x100f#32) ||| s, ospeed := s }
  { t with iflag := if s = 0#32 then t.iflag ||| 0x80000000#32 else t.iflag &&& ~~~(0x80000000#32), cflag := if s = 0#32 then t.cflag else t.cflag &&& ~~~(0x100f#32) ||| s, ispeed := s }

/-- The new settings, `Diminuto/src/diminuto_serial.c:149-169` and `:186-214`. -/
def settings (t : Termios) (speed : Option (BitVec 32)) (data parity stop : BitVec 32) (modemcontrol xonxoff rtscts : Int) : Termios :=
  let clocal := if modemcontrol ≠ 0 then 0#32 else CLOCAL
  let hupcl := if modemcontrol ≠ 0 then HUPCL else 0#32
  let ixon := if xonxoff ≠ 0 then IXON else 0#32
  let ixoff := if xonxoff ≠ 0 then IXOFF else 0#32
  let crtscts := if rtscts ≠ 0 then CRTSCTS else 0#32
  let t := { t with
    iflag := t.iflag &&& ~~~(cooked ||| IXOFF) ||| ixon ||| ixoff
    oflag := t.oflag &&& ~~~OPOST
    cflag := t.cflag &&& ~~~(CSIZE ||| PARENB ||| PARODD ||| CSTOPB ||| CLOCAL ||| HUPCL ||| CRTSCTS) ||| CREAD ||| data ||| parity ||| stop ||| clocal ||| hupcl ||| crtscts
    lflag := t.lflag &&& ~~~local' }
  let t := match speed with
    | none => t
    | some s => setSpeed t s
  { t with cc := fun i => if i = VMIN then 1#8 else if i = VTIME then 0#8 else t.cc i }

/-- Getting, changing, and setting the settings, `Diminuto/src/diminuto_serial.c:181-226` and `:246-272`. -/
def change {σ : Type} (w : World σ) (f : Termios → Termios) (s : σ) : Int × σ :=
  match w.get s with
  | (none, s) => (-1, s)
  | (some t, s) =>
    match w.set (f t) s with
    | (false, s) => (-1, s)
    | (true, s) => (0, (w.flush s).2)

/-- `diminuto_serial_set`, `Diminuto/src/diminuto_serial.c:22-231`.  With the result comes what the function itself stores in `errno`. -/
def set {σ : Type} (w : World σ) (bitspersecond databits paritybit stopbits modemcontrol xonxoff rtscts : Int) (s : σ) : (Int × Option Errno) × σ :=
  match speed bitspersecond, data databits, stop stopbits with
  | some b, some d, some p =>
    if w.isatty s then
      let (r, s) := change w (fun t => settings t b d (parity paritybit) p modemcontrol xonxoff rtscts) s
      ((r, none), s)
    else ((-1, some .notty), s)
  | _, _, _ => ((-1, some .invalid), s)

/-- The settings of `diminuto_serial_raw`, `Diminuto/src/diminuto_serial.c:254-260`. -/
def rawSettings (t : Termios) : Termios :=
  { t with
    iflag := t.iflag &&& ~~~cooked
    oflag := t.oflag &&& ~~~OPOST
    cflag := t.cflag &&& ~~~(CSIZE ||| PARENB) ||| (0x30#32 ||| CREAD ||| CLOCAL)
    lflag := t.lflag &&& ~~~local'
    cc := fun i => if i = VMIN then 1#8 else if i = VTIME then 0#8 else t.cc i }

/-- `diminuto_serial_raw`, `Diminuto/src/diminuto_serial.c:233-277`. -/
def raw {σ : Type} (w : World σ) (s : σ) : (Int × Option Errno) × σ :=
  if w.isatty s then
    let (r, s) := change w rawSettings s
    ((r, none), s)
  else ((-1, some .invalid), s)

/-- `diminuto_serial_wait`, `Diminuto/src/diminuto_serial.c:303-336`. -/
def wait {σ : Type} (w : World σ) (s : σ) : (Int × Option Errno) × σ :=
  if w.isatty s then
    match w.wait s with
    | (false, s) => ((-1, none), s)
    | (true, s) => ((0, none), s)
  else ((-1, some .invalid), s)

/-- `diminuto_serial_status`, `Diminuto/src/diminuto_serial.c:338-362`. -/
def status {σ : Type} (w : World σ) (s : σ) : (Int × Option Errno) × σ :=
  if w.isatty s then
    match w.lines s with
    | (none, s) => ((-1, none), s)
    | (some v, s) => ((if v &&& TIOCM_CD = 0#32 then 0 else 1, none), s)
  else ((-1, some .invalid), s)

/-- `diminuto_serial_available`, `Diminuto/src/diminuto_serial.c:364-387`. -/
def available {σ : Type} (w : World σ) (s : σ) : (Int × Option Errno) × σ :=
  if w.isatty s then
    match w.pending s with
    | (none, s) => ((-1, none), s)
    | (some v, s) => ((v.toInt, none), s)
  else ((-1, some .invalid), s)

/-- `diminuto_serial_valid`, `Diminuto/src/diminuto_serial.c:389-392`. -/
def valid {σ : Type} (w : World σ) (s : σ) : Int := if w.isatty s then 1 else 0

end Diminuto.Serial
