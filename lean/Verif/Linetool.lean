import Verif.Cue
import Verif.Number
import Verif.Time

/-!
# Model of the tool that manipulates lines

`Diminuto/bin/linetool.c`.  The functions of the Line feature, of the multiplexer and of the system are arbitrary functions of a state.  A descriptor is a number.  `SIGPIPE` is raised when something is written to the standard output whose reader
has gone, and by nothing else.  What is printed on the standard error is left out, as is `getopt(3)`: the options come with their arguments.
-/

namespace Diminuto.Linetool

open Number (decimal)

/-- The context, `Diminuto/bin/linetool.c:178-183`: the path of the device, the offset of the line, the flags and the debounce period. -/
structure Context where
  path : Option (List Byte)
  line : BitVec 32
  flags : BitVec 64
  useconds : BitVec 32
deriving DecidableEq

/-- The flags, `Diminuto/inc/com/diag/diminuto/diminuto_line.h:62-66`, with their values in `linux/gpio.h`. -/
def LOW : BitVec 64 := 0x2
/-- `DIMINUTO_LINE_FLAG_INPUT`, `Diminuto/inc/com/diag/diminuto/diminuto_line.h:63`. -/
def INPUT : BitVec 64 := 0x4
/-- `DIMINUTO_LINE_FLAG_OUTPUT`, `Diminuto/inc/com/diag/diminuto/diminuto_line.h:64`. -/
def OUTPUT : BitVec 64 := 0x8
/-- `DIMINUTO_LINE_FLAG_EDGE_RISING`, `Diminuto/inc/com/diag/diminuto/diminuto_line.h:65`. -/
def RISING : BitVec 64 := 0x10
/-- `DIMINUTO_LINE_FLAG_EDGE_FALLING`, `Diminuto/inc/com/diag/diminuto/diminuto_line.h:66`. -/
def FALLING : BitVec 64 := 0x20

/-- What waiting for a descriptor comes to, `Diminuto/bin/linetool.c:486-506`: it fails; it is interrupted by a signal; the time is over; or the descriptor, which is the only one, can be read. -/
inductive Wait where
  | failed
  | interrupted
  | timeout
  | ready
deriving DecidableEq

/-- What reading an event comes to, `Diminuto/bin/linetool.c:507-518`: it fails; it has to be tried again (`EINTR` or `EAGAIN`); or there was an edge, which is rising or not. -/
inductive Event where
  | failed
  | again
  | edge (rising : Bool)
deriving DecidableEq

/-- What surrounds the program: `diminuto_line_parse`, which returns the path, the offset and whether the line is active low, and depends on nothing that the program does; `diminuto_line_open_read`, `diminuto_line_close`, `diminuto_line_get`, `diminuto_line_put` and `diminuto_line_read`;
`diminuto_mux_wait` for one descriptor; `diminuto_delay`, `diminuto_system` and `diminuto_daemon`; and `fflush(3)` of the standard output, with whether its reader has gone. -/
structure Api (σ : Type) where
  parse : List Byte → Option (List Byte × BitVec 32 × Bool)
  open_ : Context → σ → Option Nat × σ
  close : Nat → σ → Bool × σ
  get : Nat → σ → Option Bool × σ
  put : Nat → Bool → σ → Bool × σ
  read : Nat → σ → Event × σ
  wait : Nat → Int → σ → Wait × σ
  delay : BitVec 64 → σ → σ
  system : List Byte → σ → Bool × σ
  daemon : σ → Bool × σ
  flush : σ → Bool × σ

/-- What is seen from outside: the calls with their results, and what is printed. -/
inductive Act where
  | opened (c : Context) (r : Option Nat)
  | closed (h : Nat) (ok : Bool)
  | got (h : Nat) (v : Option Bool)
  | put (h : Nat) (b : Bool) (ok : Bool)
  | waited (h : Nat) (t : Int) (r : Wait)
  | read (h : Nat) (r : Event)
  | slept (t : BitVec 64)
  | ran (text : List Byte) (ok : Bool)
  | daemonized (ok : Bool)
  | printed (b : Bool)
  | shown (c : Context) (h : Option Nat)
  | flushed (broken : Bool)
deriving DecidableEq

/-- The options that only change the flags: `-B`, `-R`, `-F`, `-N`; `-H` and `-L`; `-h` and `-l`; `-i` and `-o`. -/
inductive Flag where
  | both
  | rising
  | falling
  | none
  | active (low : Bool)
  | initial (low : Bool)
  | input
  | output
deriving DecidableEq

/-- The options with their arguments, `Diminuto/bin/linetool.c:89`, `:205`: `-1`; those above; `-D`; `-M`; `-O`; `-P`; `-S`; `-U`; `-X`; `-b`; `-s` and `-c`; `-e`; `-f` and `-t`; `-m`; `-n`; `-p`; `-r`; `-u`; `-w`; `-x`; `-?` and anything that `getopt(3)` refuses; and `-v`,
which is taken by `getopt(3)` but has no case. -/
inductive Opt where
  | first
  | flag (f : Flag)
  | device (text : List Byte)
  | debounce (text : List Byte)
  | context
  | place (text : List Byte)
  | daemon
  | unique
  | command (text : List Byte)
  | poll (text : List Byte)
  | write (b : Bool)
  | shut
  | test (nonzero : Bool)
  | watch (text : List Byte)
  | clear
  | line (text : List Byte)
  | read
  | delay (text : List Byte)
  | writeText (text : List Byte)
  | configure
  | menu
  | other
deriving DecidableEq

/-- The variables of `main`, `Diminuto/bin/linetool.c:149-183`; whether `SIGPIPE` has been counted by its handler, `Diminuto/src/diminuto_pipe.c:43-56`, whether it waits to be delivered, and whether it is blocked; and what has been seen.  `state` is
kept as whether it is not zero: where it is negative the program ends. -/
structure State (σ : Type) where
  first : Bool
  unique : Bool
  state : Bool
  fd : Option Nat
  command : Option (List Byte)
  sticks : Int
  context : Context
  caught : Bool
  pending : Bool
  blocked : Bool
  kernel : σ
  log : List Act

/-- What becomes of the loop over the options: it goes on; it is left with an exit code; one of the endless loops is still going on; or the behaviour is not defined. -/
inductive Flow (σ : Type) where
  | next (s : State σ)
  | stop (code : Nat) (s : State σ)
  | busy (s : State σ)
  | undefined

/-- The options that only change the flags, `Diminuto/bin/linetool.c:225-230`, `:238-254`, `:271-276`, `:298-302`, `:400-418`, `:569-573`. -/
def setFlags (f : Flag) (w : BitVec 64) : BitVec 64 :=
  match f with
  | .both => w ||| RISING ||| FALLING
  | .rising => w ||| RISING
  | .falling => w ||| FALLING
  | .none => w &&& ~~~RISING &&& ~~~FALLING
  | .active low => if low then w ||| LOW else w &&& ~~~LOW
  | .initial low => if low then OUTPUT ||| LOW else OUTPUT &&& ~~~LOW
  | .input => w ||| INPUT
  | .output => w ||| OUTPUT

/-- The number of ticks of a number of microseconds, `Diminuto/bin/linetool.c:329`, `:641`: the argument of `diminuto_frequency_units2ticks` is signed; nothing if the product is not defined. -/
def ticks (u : Nat) : Option (BitVec 64) := (Time.units2ticks (BitVec.ofNat 64 u).toInt 1000000).map (BitVec.ofInt 64)

/-- The text for `diminuto_system`, `Diminuto/bin/linetool.c:526-528`, in a buffer of 1024 characters. -/
def commandLine (command path : List Byte) (line : BitVec 32) (state : Bool) (prior : Option Bool) : List Byte :=
  let number (b : Bool) : List Byte := if b then [0x31#8] else [0x30#8]
  (command ++ [0x20#8] ++ path ++ [0x20#8] ++ decimal line.toNat ++ [0x20#8] ++ number state ++ [0x20#8] ++ (match prior with | none => [0x2d#8, 0x31#8] | some b => number b)).take 1023

section
variable {σ : Type} (a : Api σ)

/-- The descriptor, without which `-b`, `-c`, `-m`, `-r`, `-s` and `-w` fail, `Diminuto/bin/linetool.c:330-335` and others. -/
def need (s : State σ) (rest : Nat → Flow σ) : Flow σ :=
  match s.fd with
  | none => .stop 2 s
  | some h => rest h

/-- `diminuto_line_get`, which may fail, `Diminuto/bin/linetool.c:336-339`, `:351-354`, `:471-473`, `:608-609`. -/
def sample (h : Nat) (s : State σ) (rest : Bool → State σ → Flow σ) : Flow σ :=
  match a.get h s.kernel with
  | (v, k) =>
    let s := { s with kernel := k, log := s.log ++ [.got h v] }
    match v with
    | none => .stop 2 s
    | some b => rest b s

/-- `printf(3)` of the state. -/
def print (b : Bool) (s : State σ) : State σ := { s with state := b, log := s.log ++ [.printed b] }

/-- `fflush(3)`: if the reader has gone the signal is delivered, or waits if it is blocked. -/
def flush (s : State σ) : State σ :=
  match a.flush s.kernel with
  | (broken, k) =>
    { s with kernel := k, caught := s.caught || (broken && !s.blocked), pending := s.pending || (broken && s.blocked), log := s.log ++ [.flushed broken] }

/-- `diminuto_line_put`, `Diminuto/bin/linetool.c:371-376`, `:622-627`, `:655-660`. -/
def store (h : Nat) (b : Bool) (s : State σ) : Flow σ :=
  match a.put h b s.kernel with
  | (ok, k) =>
    let s := { s with kernel := k, log := s.log ++ [.put h b ok] }
    if ok then .next { s with state := b } else .stop 2 s

/-- The loop of `-b`, `Diminuto/bin/linetool.c:345-362`, for a number of times.  Without `SIGPIPE` blocked `diminuto_pipe_check` returns and clears whether it has been counted, `Diminuto/src/diminuto_pipe.c:58-80`. -/
def polling (h : Nat) (t : BitVec 64) : Nat → Cue.State → State σ → Flow σ
  | 0, _, s => .busy s
  | n + 1, cue, s =>
    if s.caught then .next { s with caught := false }
    else
      sample a h { s with kernel := a.delay t s.kernel, log := s.log ++ [.slept t] } fun b s' =>
        let cue := Cue.debounce cue (if b then 1 else 0)
        if cue.r ≠ s.state then polling h t n cue (flush a (print cue.r s'))
        else polling h t n cue { s' with state := cue.r }

/-- `-b`, `Diminuto/bin/linetool.c:336-363`. -/
def poll (patience : Nat) (t : BitVec 64) (h : Nat) (s : State σ) : Flow σ :=
  sample a h s fun b s => polling a h t patience (Cue.init (if b then 1 else 0)) (flush a (print b s))

/-- What is done with an edge, `Diminuto/bin/linetool.c:520-540`.  A path that is not there cannot be printed. -/
def notice (b : Bool) (prior : Option Bool) (s : State σ) (rest : State σ → Flow σ) : Flow σ :=
  if s.unique ∧ prior = some b then rest { s with state := b }
  else
    match s.command with
    | some text =>
      match s.context.path with
      | none => .undefined
      | some path =>
        match a.system (commandLine text path s.context.line b prior) s.kernel with
        | (ok, k) =>
          let s := { s with state := b, kernel := k, log := s.log ++ [.ran (commandLine text path s.context.line b prior) ok] }
          if ok then rest s else .stop 2 s
    | none => rest (flush a (print b s))

/-- `diminuto_mux_wait`, `Diminuto/bin/linetool.c:486`: `SIGPIPE` is not blocked while it waits, `:457`, `Diminuto/src/diminuto_mux.c:279`, so that if one waits to be delivered it is, and interrupts. -/
def await (h : Nat) (s : State σ) : Wait × State σ :=
  if s.pending then (.interrupted, { s with pending := false, caught := true, log := s.log ++ [.waited h s.sticks .interrupted] })
  else match a.wait h s.sticks s.kernel with | (r, k) => (r, { s with kernel := k, log := s.log ++ [.waited h s.sticks r] })

/-- The loop of `-m`, `Diminuto/bin/linetool.c:481-541`, for a number of times. -/
def watching (h : Nat) : Nat → Option Bool → State σ → Flow σ
  | 0, _, s => .busy s
  | n + 1, prior, s =>
    if s.caught then .next { s with caught := false }
    else
      match await a h s with
      | (.failed, s) => .stop 2 s
      | (.interrupted, s) => watching h n prior s
      | (.timeout, s) => watching h n prior s
      | (.ready, s) =>
        match a.read h s.kernel with
        | (r, k) =>
          let s := { s with kernel := k, log := s.log ++ [.read h r] }
          match r with
          | .failed => .stop 2 s
          | .again => watching h n prior s
          | .edge b => notice a b prior s (watching h n (some b))

/-- `-m`, `Diminuto/bin/linetool.c:437-547`: `SIGPIPE` is blocked, `:437-449`, and remains so, as the mask from before is added to it at the end, `:542`.  The functions for signals and the registration of one descriptor below the limit of `select(2)` do not fail. -/
def watch (patience : Nat) (h : Nat) (s : State σ) : Flow σ :=
  let s := { s with blocked := true }
  if s.first then sample a h s fun b s => watching a h patience (some b) (flush a (print b s))
  else watching a h patience none s

/-- The conversion of an argument, which is an error if anything is left of it. -/
def number (text : List Byte) (s : State σ) (rest : Nat → Flow σ) : Flow σ :=
  if (Number.unsigned text).2.1 ≠ [] then .stop 1 s else rest (Number.unsigned text).1

/-- An argument that has to fit into 32 bits, `Diminuto/bin/linetool.c:258-268`, `:586-599`. -/
def number32 (text : List Byte) (s : State σ) (rest : BitVec 32 → Flow σ) : Flow σ :=
  number text s fun u => if u > 4294967295 then .stop 1 s else rest (BitVec.ofNat 32 u)

/-- The flags of a line that is inverted or not, `Diminuto/bin/linetool.c:292-294`, `:595-597`. -/
def invert (low : Bool) (c : Context) : Context := if low then { c with flags := c.flags ||| LOW } else c

/-- `diminuto_line_close`, `Diminuto/src/diminuto_line.c:377-388`, of the descriptor if there is one, `Diminuto/bin/linetool.c:385-391`, `:559-565`: if it fails the descriptor remains. -/
def shut (s : State σ) : Bool × State σ :=
  match s.fd with
  | none => (true, s)
  | some h =>
    match a.close h s.kernel with
    | (ok, k) => (ok, { s with kernel := k, fd := if ok then none else s.fd, log := s.log ++ [.closed h ok] })

/-- The context at the beginning and after `-n`, `Diminuto/bin/linetool.c:179-182`, `:552-555`. -/
def blank : Context := ⟨none, 0xffffffff, 0, 0⟩

/-- An option, `Diminuto/bin/linetool.c:218-685`. -/
def step (patience : Nat) (o : Opt) (s : State σ) : Flow σ :=
  match o with
  | .first => .next { s with first := true }
  | .flag f => .next { s with context := { s.context with flags := setFlags f s.context.flags } }
  | .device text => .next { s with context := { s.context with path := some text } }
  | .debounce text => number32 text s fun u => .next { s with context := { s.context with useconds := u } }
  | .context => .next (flush a { s with log := s.log ++ [.shown s.context s.fd] })
  | .place text =>
    match a.parse text with
    | none => .stop 2 { s with context := { s.context with path := none } }
    | some (path, line, low) => .next { s with context := invert low { s.context with path := some path, line := line } }
  | .daemon => match a.daemon s.kernel with | (ok, k) => if ok then .next { s with kernel := k, log := s.log ++ [.daemonized ok] } else .stop 2 { s with kernel := k, log := s.log ++ [.daemonized ok] }
  | .unique => .next { s with unique := true }
  | .command text => .next { s with command := some text }
  | .poll text => number text s fun u => match ticks u with | none => .undefined | some t => need s fun h => poll a patience t h s
  | .write b => need s fun h => store a h b s
  | .shut => match shut a s with | (ok, s) => if ok then .next s else .stop 2 s
  | .test nonzero => if s.state = nonzero then .next s else .stop 0 s
  | .watch text =>
    if (Number.signed text).2.1 ≠ [] then .stop 1 s
    else
      match (if (Number.signed text).1 > 0 then Time.units2ticks (Number.signed text).1 1000000 else some s.sticks) with
      | none => .undefined
      | some t => need { s with sticks := t } fun h => watch a patience h { s with sticks := t }
  | .clear => match shut a { s with context := blank } with | (ok, s) => if ok then .next s else .stop 2 s
  | .line text =>
    let low : Bool := text[0]? = some 0x2d#8
    number32 (if low then text.drop 1 else text) s fun u => .next { s with context := invert low { s.context with line := u } }
  | .read => need s fun h => sample a h s fun b s => .next (print b s)
  | .delay text => number text s fun u => match ticks u with | none => .undefined | some t => .next { s with kernel := a.delay t s.kernel, log := s.log ++ [.slept t] }
  | .writeText text => number text s fun u => need s fun h => store a h (u != 0) s
  | .configure =>
    match s.fd with
    | some _ => .stop 2 s
    | none =>
      match a.open_ s.context s.kernel with
      | (r, k) =>
        let s := { s with kernel := k, fd := r, log := s.log ++ [.opened s.context r] }
        match r with
        | none => .stop 2 s
        | some _ => .next s
  | .menu => .next s
  | .other => .stop 1 s

/-- What a run comes to: it exits; it is still going on; or its behaviour is not defined. -/
inductive Outcome (σ : Type) where
  | exit (code : Nat) (s : State σ)
  | busy (s : State σ)
  | undefined

/-- The end, `Diminuto/bin/linetool.c:704-708`. -/
def finish (code : Nat) (s : State σ) : Outcome σ := .exit code (shut a s).2

/-- The loop, `Diminuto/bin/linetool.c:205-702`, which is left if `SIGPIPE` has been counted, `:207-211`; each of the endless loops in it is followed for a number of times. -/
def loop (patience : Nat) : List Opt → State σ → Outcome σ
  | [], s => finish a 0 s
  | o :: r, s =>
    if s.caught then finish a 0 { s with caught := false }
    else
      match step a patience o s with
      | .next s => loop patience r s
      | .stop code s => finish a code s
      | .busy s => .busy s
      | .undefined => .undefined

/-- The variables at the beginning, `Diminuto/bin/linetool.c:149-182`. -/
def start (k : σ) : State σ :=
  { first := false, unique := false, state := false, fd := none, command := none, sticks := -2, context := blank, caught := false, pending := false, blocked := false, kernel := k, log := [] }

/-- `main`, `Diminuto/bin/linetool.c:147-709`. -/
def main (patience : Nat) (opts : List Opt) (k : σ) : Outcome σ := loop a patience opts (start k)

end

end Diminuto.Linetool
