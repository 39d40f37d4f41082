import Verif.Number
import Verif.Serial

/-!
# Model of the tool for serial ports

`Diminuto/bin/serialtool.c`.  The functions of the system are arbitrary functions of a state; those of the Serial feature are the ones of `Verif/Serial.lean`.  What is printed on the standard error, the times, and the bandwidths that are logged are left out, as is `getopt(3)`: the options
come with their arguments.
-/

namespace Diminuto.Serialtool

/-- The options with their arguments, `Diminuto/bin/serialtool.c:145`: `-1`, `-2`, `-5`, `-6`, `-7`, `-8`, `-B`, `-D`, `-F`, `-I`, `-M`, `-N`, `-O`, `-P`, `-T`, `-b`, `-c`, `-d`, `-e`, `-h`, `-i`, `-l`, `-m`, `-n`, `-o`, `-p`, `-r`, `-s`, `-t`, `-v`; and `-?`, or anything
that `getopt(3)` refuses. -/
inductive Opt where
  | one | two | five | six | seven | eight
  | backward
  | device (text : List Byte)
  | forward
  | maximum (text : List Byte)
  | modulo (text : List Byte)
  | interactive
  | nonblocking
  | proceed
  | terminal
  | rate (text : List Byte)
  | carrier
  | debug
  | even
  | hardware
  | noinput
  | direct
  | modem
  | parityless
  | odd
  | printable
  | raw
  | software
  | seconds (text : List Byte)
  | verbose
  | menu
deriving DecidableEq

/-- The variables that the options set, `Diminuto/bin/serialtool.c:96-139`.  The names are those of the program. -/
structure Config where
  bitspersecond : Int
  databits : Int
  paritybit : Int
  stopbits : Int
  modemcontrol : Bool
  xonxoff : Bool
  rtscts : Bool
  carrierdetect : Bool
  device : List Byte
  forward : Bool
  backward : Bool
  printable : Bool
  seconds : BitVec 32
  maximum : Nat
  noinput : Bool
  rawterminal : Bool
  nonblocking : Bool
  onlyaterminal : Bool
  proceed : Bool
  modulo : Nat

/-- Their values at the beginning, `Diminuto/bin/serialtool.c:96-139`: the device is `/dev/null`. -/
def Config.start : Config where
  bitspersecond := 115200
  databits := 8
  paritybit := 0
  stopbits := 1
  modemcontrol := false
  xonxoff := false
  rtscts := false
  carrierdetect := false
  device := [47, 100, 101, 118, 47, 110, 117, 108, 108]
  forward := false
  backward := false
  printable := false
  seconds := 10
  maximum := 512
  noinput := false
  rawterminal := false
  nonblocking := false
  onlyaterminal := false
  proceed := false
  modulo := 0

/-- `strtoul(3)` with the base zero and without looking at what is left, `Diminuto/bin/serialtool.c:186`, `:190`, `:213`, `:266`. -/
def number (text : List Byte) : Nat := (Number.strtoull text).1

/-- An option, `Diminuto/bin/serialtool.c:149-271`; nothing for `-?`, `:273-306`.  The rate is converted to an `int`, and the seconds to an `unsigned int`. -/
def option (o : Opt) (c : Config) : Option Config :=
  match o with
  | .one => some { c with stopbits := 1 }
  | .two => some { c with stopbits := 2 }
  | .five => some { c with databits := 5 }
  | .six => some { c with databits := 6 }
  | .seven => some { c with databits := 7 }
  | .eight => some { c with databits := 8 }
  | .backward => some { c with backward := true }
  | .device text => some { c with device := text }
  | .forward => some { c with forward := true }
  | .maximum text => some { c with maximum := number text }
  | .modulo text => some { c with modulo := number text }
  | .interactive => some { c with backward := false, forward := false, noinput := false, nonblocking := true }
  | .nonblocking => some { c with nonblocking := true }
  | .proceed => some { c with proceed := true }
  | .terminal => some { c with onlyaterminal := true }
  | .rate text => some { c with bitspersecond := (BitVec.ofNat 32 (number text)).toInt }
  | .carrier => some { c with modemcontrol := true, carrierdetect := true }
  | .debug => some c
  | .even => some { c with paritybit := 2 }
  | .hardware => some { c with rtscts := true }
  | .noinput => some { c with noinput := true }
  | .direct => some { c with modemcontrol := false }
  | .modem => some { c with modemcontrol := true }
  | .parityless => some { c with paritybit := 0 }
  | .odd => some { c with paritybit := 1 }
  | .printable => some { c with printable := true }
  | .raw => some { c with rawterminal := true }
  | .software => some { c with xonxoff := true }
  | .seconds text => some { c with seconds := BitVec.ofNat 32 (number text) }
  | .verbose => some c
  | .menu => none

/-- The loop over the options, `Diminuto/bin/serialtool.c:145-310`. -/
def options : List Opt → Config → Option Config
  | [], c => some c
  | o :: r, c => (option o c).bind (options r)

/-- The two that are multiplexed, `Diminuto/bin/serialtool.c:540-545`: the device, and the standard input and output. -/
inductive End where
  | device
  | terminal
deriving DecidableEq

/-- The other one, to which what has been read is written, `Diminuto/bin/serialtool.c:582`, `:608`. -/
def End.other : End → End
  | .device => .terminal
  | .terminal => .device

/-- What surrounds the program.  `port` is what the Serial feature needs for the device.  The signals are part of the state: whether one of `SIGPIPE`, `SIGINT`, `SIGTERM` and `SIGQUIT`, whether `SIGHUP`, and whether `SIGALRM` has been handled, `Diminuto/bin/serialtool.c:63-84`. -/
structure Api (σ : Type) where
  /-- The device. -/
  port : Serial.World σ
  /-- `open(2)`, `:338`, with whether it is not to block; the descriptor is neither 0 nor 1, `:340-341`. -/
  open_ : List Byte → Bool → σ → Bool × σ
  /-- `fcntl(2)` with `F_SETFL`, `:343`. -/
  flags : Bool → σ → Bool × σ
  /-- `ioctl(2)` with `TIOCEXCL`, `:351`. -/
  exclusive : σ → Bool × σ
  /-- `ioctl(2)` with `TCFLSH`, `:354`. -/
  flush : σ → Bool × σ
  /-- `diminuto_serial_raw` of the standard input and output, `:379-384`. -/
  raw : σ → Bool × σ
  /-- `fdopen(3)`, `:399`, `:454`. -/
  stream : σ → Bool × σ
  /-- `setvbuf(3)`, `Diminuto/src/diminuto_serial.c:291`. -/
  unbuffer : σ → Bool × σ
  /-- `fgetc(3)`, with `alarm(2)` around it or not. -/
  getc : BitVec 32 → σ → Option Byte × σ
  /-- `fputc(3)`. -/
  putc : Byte → σ → Bool × σ
  /-- `diminuto_mux_wait` and the calls of `diminuto_mux_ready_read` after it: nothing if it fails, or the ones that are ready. -/
  wait : σ → Option (List End) × σ
  /-- `diminuto_fd_read` of at most a number of bytes. -/
  read : End → Nat → σ → Option (List Byte) × σ
  /-- `diminuto_fd_write`: the number of bytes that were written, if it does not fail. -/
  write : End → List Byte → σ → Option Nat × σ
  done : σ → Bool
  curious : σ → Bool
  alarmed : σ → Bool
  /-- `curious = 0`, `:437`, `:515`. -/
  calm : σ → σ

/-- Why the number of characters is reported, `Diminuto/bin/serialtool.c:425-442`, `:494-520`. -/
inductive Why where
  | modulo | done | curious | eof | timeout
deriving DecidableEq

/-- What is seen from outside, `Diminuto/bin/serialtool.c:405-445`, `:460-525`, `:546-615`. -/
inductive Act where
  | got (b : Option Byte)
  | put (b : Byte) (ok : Bool)
  | mismatch (input output : Byte)
  | report (why : Why) (count : Nat)
  | status (r : Int)
  | hold (ok : Bool)
  | waited (r : Option (List End))
  | read (e : End) (r : Option (List Byte))
  | wrote (e : End) (data : List Byte) (n : Option Nat)
deriving DecidableEq

/-- The variables of the loops, `Diminuto/bin/serialtool.c:63`, `:114`, `:139`: whether the program itself has set `done`; the number of characters, of which there are fewer than 2^64; whether the standard input is registered with the multiplexer; and whether it has ended. -/
structure State (σ : Type) where
  done : Bool
  count : Nat
  registered : Bool
  eof : Bool
  kernel : σ
  log : List Act

/-- What a run comes to: it exits; one of the loops is still going on; or a contract is broken, so that the program aborts. -/
inductive Outcome (σ : Type) where
  | exit (code : Nat) (s : State σ)
  | busy (s : State σ)
  | fatal (s : State σ)

section
variable {σ : Type} (a : Api σ)

/-- The device is prepared, `Diminuto/bin/serialtool.c:338-384`: nothing if a contract is broken. -/
def prepare (c : Config) (k : σ) : Option σ :=
  match a.open_ c.device c.nonblocking k with
  | (false, _) => none
  | (true, k) =>
    match a.flags c.nonblocking k with
    | (false, _) => none
    | (true, k) =>
      let rest (k : σ) : Option σ :=
        if c.rawterminal then match a.raw k with | (ok, k) => if ok then some k else none
        else some k
      if a.port.isatty k then
        match a.exclusive k with
        | (false, _) => none
        | (true, k) =>
          match a.flush k with
          | (false, _) => none
          | (true, k) =>
            match Serial.set a.port c.bitspersecond c.databits c.paritybit c.stopbits (if c.modemcontrol then 1 else 0) (if c.xonxoff then 1 else 0) (if c.rtscts then 1 else 0) k with
            | ((r, _), k) =>
              if r ≠ 0 then none
              else
                match Serial.raw a.port k with
                | ((r, _), k) => if r ≠ 0 then none else rest k
      else if c.onlyaterminal then none
      else rest k

/-- Whether `done` has been set, by a signal or by the program, `Diminuto/bin/serialtool.c:405`, `:460`, `:546`, `:562`. -/
def over (s : State σ) : Bool := s.done || a.done s.kernel

/-- The number of characters is logged, `Diminuto/bin/serialtool.c:428-431` and others. -/
def report (why : Why) (s : State σ) : State σ := { s with log := s.log ++ [.report why s.count] }

/-- A character is counted, and the number reported if it is a multiple, `Diminuto/bin/serialtool.c:414-426`, `:485-495`. -/
def tally (c : Config) (s : State σ) : State σ :=
  let s := { s with count := s.count + 1 }
  if c.modulo = 0 then s else if s.count % c.modulo > 0 then s else report .modulo s

/-- `-F`, `Diminuto/bin/serialtool.c:405-445`, for a number of turns. -/
def forward (c : Config) : Nat → State σ → Outcome σ
  | 0, s => .busy s
  | n + 1, s =>
    if over a s then .exit 0 s
    else
      match a.getc 0 s.kernel with
      | (some b, k) =>
        match a.putc b k with
        | (ok, k) => forward c n (tally c { s with kernel := k, log := s.log ++ [.got (some b), .put b ok] })
      | (none, k) =>
        let s := { s with kernel := k, log := s.log ++ [.got none] }
        if over a s then forward c n (report .done s)
        else if a.curious s.kernel then forward c n (report .curious { s with kernel := a.calm s.kernel })
        else forward c n { report .eof s with done := true }

/-- The next character, `Diminuto/bin/serialtool.c:478-484`. -/
def next (c : Config) (b : Byte) : Byte :=
  if c.printable then (if b.toNat + 1 > 0x7e then 0x21 else b + 1) else b + 1

/-- `-B`, `Diminuto/bin/serialtool.c:460-525`, for a number of turns of its two loops: in the outer one a character is sent, and in the inner one it is waited for. -/
def backward (c : Config) : Nat → Bool → Byte → State σ → Outcome σ
  | 0, _, _, s => .busy s
  | n + 1, false, output, s =>
    if over a s then .exit 0 s
    else match a.putc output s.kernel with | (ok, k) => backward c n true output { s with kernel := k, log := s.log ++ [.put output ok] }
  | n + 1, true, output, s =>
    match a.getc c.seconds s.kernel with
    | (some b, k) =>
      let s := { s with kernel := k, log := s.log ++ [.got (some b)] }
      if b ≠ output then backward c n false output { s with done := true, log := s.log ++ [.mismatch b output] }
      else backward c n false (next c output) (tally c s)
    | (none, k) =>
      let s := { s with kernel := k, log := s.log ++ [.got none] }
      if a.alarmed s.kernel then backward c n false output { report .timeout s with done := true }
      else if over a s then backward c n false output (report .done s)
      else if a.curious s.kernel then backward c n true output (report .curious { s with kernel := a.calm s.kernel })
      else backward c n false output { report .eof s with done := true }

/-- Waiting for the carrier, `Diminuto/bin/serialtool.c:547-557`, for a number of turns. -/
def hold : Nat → State σ → (State σ → Outcome σ) → Outcome σ
  | 0, s, _ => .busy s
  | n + 1, s, rest =>
    match Serial.status a.port s.kernel with
    | ((r, _), k) =>
      let s := { s with kernel := k, log := s.log ++ [.status r] }
      if r < 0 then .fatal s
      else if r ≠ 0 then rest s
      else
        match Serial.wait a.port s.kernel with
        | ((r, _), k) =>
          let s := { s with kernel := k, log := s.log ++ [.hold (decide (r ≥ 0))] }
          if r < 0 then .fatal s else hold n s rest

/-- What has been read is written to the other end, `Diminuto/bin/serialtool.c:582-584`, `:608-610`. -/
def pass (e : End) (data : List Byte) (s : State σ) (rest : State σ → Outcome σ) : Outcome σ :=
  match a.write e.other data s.kernel with
  | (n, k) =>
    let s := { s with kernel := k, log := s.log ++ [.wrote e.other data n] }
    if n = some data.length then rest s else .fatal s

/-- The inner loop of the interactive mode, `Diminuto/bin/serialtool.c:562-614`, over those that are ready.  One that is not registered is not. -/
def serve (c : Config) : List End → State σ → (State σ → Outcome σ) → Outcome σ
  | [], s, rest => rest s
  | e :: r, s, rest =>
    if over a s then rest s
    else if e = .terminal ∧ s.registered = false then serve c r s rest
    else
      match a.read e c.maximum s.kernel with
      | (v, k) =>
        let s := { s with kernel := k, log := s.log ++ [.read e v] }
        match v with
        | none => .fatal s
        | some data =>
          if data.length > c.maximum then .fatal s
          else if data = [] then
            if e = .terminal ∧ c.proceed then serve c r { s with registered := false, eof := true } rest
            else rest { s with done := true }
          else pass a e data s fun s => serve c r s rest

/-- The end of the interactive mode, `Diminuto/bin/serialtool.c:617-622`: if the standard input has not ended it is taken from the multiplexer, which fails if it is not there, `Diminuto/src/diminuto_mux.c:158-160`. -/
def leave (s : State σ) : Outcome σ :=
  if s.eof = false ∧ s.registered = false then .fatal s else .exit 0 { s with registered := false }

/-- The outer loop of the interactive mode, `Diminuto/bin/serialtool.c:546-615`, for a number of turns. -/
def multiplex (c : Config) (patience : Nat) : Nat → State σ → Outcome σ
  | 0, s => .busy s
  | n + 1, s =>
    if over a s then leave s
    else
      let rest (s : State σ) : Outcome σ :=
        match a.wait s.kernel with
        | (r, k) =>
          let s := { s with kernel := k, log := s.log ++ [.waited r] }
          match r with
          | none => multiplex c patience n { s with done := true }
          | some l => if l = [] then multiplex c patience n { s with done := true } else serve a c l s (multiplex c patience n)
      if c.carrierdetect then hold a patience s rest else rest s

/-- The interactive mode, `Diminuto/bin/serialtool.c:534-622`.  There is memory for the buffer. -/
def interactive (c : Config) (patience : Nat) (s : State σ) : Outcome σ :=
  if c.maximum = 0 then .fatal s else multiplex a c patience patience { s with registered := !c.noinput }

/-- The stream for the device, `Diminuto/bin/serialtool.c:399-403`, `:454-458`; `diminuto_serial_unbuffered`, `Diminuto/src/diminuto_serial.c:279-301`, refuses what is not a terminal. -/
def stream (s : State σ) (rest : State σ → Outcome σ) : Outcome σ :=
  match a.stream s.kernel with
  | (false, k) => .fatal { s with kernel := k }
  | (true, k) =>
    if a.port.isatty k then
      match a.unbuffer k with
      | (ok, k) => if ok then rest { s with kernel := k } else .fatal { s with kernel := k }
    else .fatal { s with kernel := k }

/-- The loops, `Diminuto/bin/serialtool.c:386-628`. -/
def run (c : Config) (patience : Nat) (s : State σ) : Outcome σ :=
  if c.forward then stream a s (forward a c patience)
  else if c.backward then stream a s (backward a c patience false (if c.printable then 0x21 else 0))
  else interactive a c patience s

/-- The variables at the beginning, `Diminuto/bin/serialtool.c:63`, `:114`, `:139`. -/
def State.start (k : σ) : State σ := ⟨false, 0, false, false, k, []⟩

/-- `main`, `Diminuto/bin/serialtool.c:86-629`.  The calls of `sigaction(2)` do not fail. -/
def main (patience : Nat) (opts : List Opt) (k : σ) : Outcome σ :=
  match options opts .start with
  | none => .exit 1 (.start k)
  | some c =>
    match prepare a c k with
    | none => .fatal (.start k)
    | some k => run a c patience (.start k)

end

end Diminuto.Serialtool
