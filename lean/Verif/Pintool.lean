import Verif.Cue
import Verif.Number

/-!
# Model of the tool that manipulates pins

`Diminuto/bin/pintool.c`.  The functions of the Pin feature, of the multiplexer and of the system are arbitrary functions of a state.  A stream is a number.  What is printed on the standard error is left out, as is `getopt(3)`: the options come
with their arguments.
-/

namespace Diminuto.Pintool

open Number (decimal)

/-- The functions that configure a pin: `diminuto_pin_edge`, for none, rising, falling and both; `diminuto_pin_active`, `diminuto_pin_initialize`, `diminuto_pin_direction`, `diminuto_pin_export`, `diminuto_pin_unexport` and
`diminuto_pin_unexport_ignore`; `Diminuto/inc/com/diag/diminuto/diminuto_pin.h:227-302`. -/
inductive Conf where
  | edge (e : Nat)
  | active (high : Bool)
  | initialize (high : Bool)
  | direction (output : Bool)
  | export
  | unexport
  | ignore
deriving DecidableEq

/-- What surrounds the program: the functions of the Pin feature (the flag of `open` is its argument `output`); `wait` is `diminuto_mux_wait` of the descriptor of a stream: nothing if it fails, and otherwise whether there was an event; then
`diminuto_delay`, `diminuto_system`, `diminuto_daemon` and `diminuto_pin_debug`. -/
structure Api (σ : Type) where
  configure : Conf → Int → σ → Bool × σ
  open_ : Int → Bool → σ → Option Nat × σ
  put : Nat → Bool → σ → Bool × σ
  get : Nat → σ → Int × σ
  close : Nat → σ → Bool × σ
  wait : Nat → Int → σ → Option Bool × σ
  delay : BitVec 64 → σ → σ
  system : List Byte → σ → Bool × σ
  daemon : σ → Bool × σ
  root : List Byte → σ → σ

/-- What is seen from outside: the calls that concern a pin or a stream, with their results, the delays, `diminuto_daemon`, what is printed, and what is run. -/
inductive Act where
  | configured (pin : Int) (c : Conf) (ok : Bool)
  | opened (pin : Int) (output : Bool) (h : Nat)
  | put (h : Nat) (b : Bool) (ok : Bool)
  | got (h : Nat) (v : Int)
  | closed (h : Nat) (ok : Bool)
  | waited (h : Nat) (ticks : Int) (ok : Bool)
  | slept (ticks : BitVec 64)
  | daemonized (ok : Bool)
  | printed (b : Bool)
  | ran (text : List Byte) (ok : Bool)
deriving DecidableEq

/-- The options with their arguments, `Diminuto/bin/pintool.c:126`: `-1`; `-N`, `-R`, `-F`, `-B`, `-H`, `-L`, `-e`, `-h`, `-i`, `-l`, `-n`, `-o`, `-x`; `-D`; `-S`; `-U`; `-X`; `-b`; `-c` and `-s`; `-d`; `-f` and `-t`; `-m` and `-M`; `-p`; `-r`; `-u`;
`-w`; `-?` and anything that `getopt(3)` refuses; and `-v`, which is taken by `getopt(3)` but has no case. -/
inductive Opt where
  | first
  | configure (c : Conf)
  | root (text : List Byte)
  | daemon
  | unique
  | command (text : List Byte)
  | poll (text : List Byte)
  | write (b : Bool)
  | debug
  | test (nonzero : Bool)
  | watch (text : Option (List Byte))
  | pin (text : List Byte)
  | read
  | delay (text : List Byte)
  | writeText (text : List Byte)
  | menu
  | other
deriving DecidableEq

/-- The variables of `main`, `Diminuto/bin/pintool.c:95-122`, and what has been seen.  `state` is kept as whether it is not zero: where it is negative the program ends. -/
structure State (σ : Type) where
  first : Bool
  unique : Bool
  pin : Int
  state : Bool
  fp : Option Nat
  command : Option (List Byte)
  sticks : Int
  kernel : σ
  log : List Act

/-- What becomes of the loop over the options: it goes on; it is left with an exit code; one of the endless loops is still going on; or the behaviour is not defined. -/
inductive Flow (σ : Type) where
  | next (s : State σ)
  | stop (code : Nat) (s : State σ)
  | busy (s : State σ)
  | undefined

/-- The number of ticks of a number of microseconds, `Diminuto/bin/pintool.c:263-265`, `:629-631`: `diminuto_ticks_t` is unsigned. -/
def ticks (u : Nat) : BitVec 64 := BitVec.ofNat 64 u * 1000000000#64 / 1000000#64

/-- The text for `diminuto_system`, `Diminuto/bin/pintool.c:468-469`, in a buffer of 1024 characters. -/
def commandLine (command : List Byte) (pin : Int) (state : Bool) (prior : Option Bool) : List Byte :=
  let number (b : Bool) : List Byte := if b then [0x31#8] else [0x30#8]
  (command ++ [0x20#8] ++ decimal pin.toNat ++ [0x20#8] ++ number state ++ [0x20#8] ++ (match prior with | none => [0x2d#8, 0x31#8] | some b => number b)).take 1023

section
variable {σ : Type} (a : Api σ)

/-- The call of a function that configures the pin: `Diminuto/bin/pintool.c:140-153`, where a failure has no consequence; `:160-236`, where it is an error; and `:334-347` and the like, where it is a failure. -/
def configure (c : Conf) (s : State σ) : Flow σ :=
  if s.pin < 0 then .stop 1 s
  else
    let r := a.configure c s.pin s.kernel
    let s := { s with kernel := r.2, log := s.log ++ [.configured s.pin c r.1] }
    if r.1 then .next s
    else match c with
      | .edge e => if e = 3 then .next s else .stop 1 s
      | .active _ => .stop 1 s
      | _ => .stop 2 s

/-- The stream, which is opened unless there is one, `Diminuto/bin/pintool.c:266-278`, `:308-320`, `:415-427`, `:571-583`, `:597-609`, `:644-656`. -/
def acquire (output : Bool) (s : State σ) (rest : Nat → State σ → Flow σ) : Flow σ :=
  match s.fp with
  | some h => rest h s
  | none =>
    if s.pin < 0 then .stop 1 s
    else
      match a.open_ s.pin output s.kernel with
      | (none, k) => .stop 2 { s with kernel := k }
      | (some h, k) => rest h { s with kernel := k, fp := some h, log := s.log ++ [.opened s.pin output h] }

/-- `diminuto_pin_get`, which may fail, `Diminuto/bin/pintool.c:279-283` and others. -/
def sample (h : Nat) (s : State σ) (rest : Bool → State σ → Flow σ) : Flow σ :=
  match a.get h s.kernel with
  | (v, k) =>
    let s := { s with kernel := k, log := s.log ++ [.got h v] }
    if v < 0 then .stop 2 s else rest (v != 0) s

/-- `printf(3)` of the state. -/
def print (b : Bool) (s : State σ) : State σ := { s with state := b, log := s.log ++ [.printed b] }

/-- `diminuto_pin_put`, `Diminuto/bin/pintool.c:321-326`, `:610-615`, `:657-662`. -/
def store (h : Nat) (b : Bool) (s : State σ) : Flow σ :=
  match a.put h b s.kernel with
  | (ok, k) =>
    let s := { s with kernel := k, state := b, log := s.log ++ [.put h b ok] }
    if ok then .next s else .stop 2 s

/-- The loop of `-b`, `Diminuto/bin/pintool.c:287-299`, for a number of times. -/
def polling (h : Nat) (t : BitVec 64) : Nat → Cue.State → State σ → Flow σ
  | 0, _, s => .busy s
  | n + 1, cue, s =>
    sample a h { s with kernel := a.delay t s.kernel, log := s.log ++ [.slept t] } fun b s' =>
      let cue := Cue.debounce cue (if b then 1 else 0)
      if cue.r ≠ s.state then polling h t n cue (print cue.r s')
      else polling h t n cue { s' with state := cue.r }

/-- `-b`, `Diminuto/bin/pintool.c:279-303`. -/
def poll (patience : Nat) (t : BitVec 64) (h : Nat) (s : State σ) : Flow σ :=
  sample a h s fun b s => polling a h t patience (Cue.init (if b then 1 else 0)) (print b s)

/-- What is done with a state, `Diminuto/bin/pintool.c:461-478`, `:487-503`. -/
def notice (b : Bool) (prior : Option Bool) (s : State σ) (rest : State σ → Flow σ) : Flow σ :=
  if s.unique ∧ prior = some b then rest { s with state := b }
  else
    match s.command with
    | some text =>
      match a.system (commandLine text s.pin b prior) s.kernel with
      | (ok, k) =>
        let s := { s with state := b, kernel := k, log := s.log ++ [.ran (commandLine text s.pin b prior) ok] }
        if ok then rest s else .stop 2 s
    | none => rest (print b s)

/-- The loop of `-m` and `-M`, `Diminuto/bin/pintool.c:446-505`, for a number of times.  One descriptor is registered, so that the loop over the descriptors that are ready, `:452-479`, reads the pin once. -/
def watching (h : Nat) : Nat → Option Bool → State σ → Flow σ
  | 0, _, s => .busy s
  | n + 1, prior, s =>
    match a.wait h s.sticks s.kernel with
    | (r, k) =>
      let s := { s with kernel := k, log := s.log ++ [.waited h s.sticks r.isSome] }
      match r with
      | none => .stop 2 s
      | some _ => sample a h s fun b s => notice a b prior s (watching h n (some b))

/-- `-m` and `-M`, `Diminuto/bin/pintool.c:428-513`.  To register a descriptor of a stream does not fail, for those below the limit of `select(2)`. -/
def watch (patience : Nat) (h : Nat) (s : State σ) : Flow σ :=
  if s.first then sample a h s fun b s => watching a h patience (some b) (print b s)
  else watching a h patience none s

/-- The conversion of an argument, which is an error if anything is left of it. -/
def number (text : List Byte) (s : State σ) (rest : Nat → Flow σ) : Flow σ :=
  if (Number.unsigned text).2.1 ≠ [] then .stop 1 s else rest (Number.unsigned text).1

/-- The time of `-m`, `Diminuto/bin/pintool.c:400-410`: the product of two `int64_t`; nothing if it is not defined. -/
def timeout (v : Int) : Option Int :=
  if v > 0 then (if v * 1000000000 < 9223372036854775808 then some (v * 1000000000 / 1000000) else none) else some v

/-- `-p`, `Diminuto/bin/pintool.c:545-567`; `pin` is an `int`.  A stream that could not be closed is closed again at the end, `:708`, which is not defined. -/
def select (u : Nat) (s : State σ) : Flow σ :=
  let s := { s with pin := (BitVec.ofNat 32 u).toInt }
  if s.pin < 0 then .stop 1 s
  else
    match s.fp with
    | none => .next s
    | some h =>
      match a.close h s.kernel with
      | (ok, k) => if ok then .next { s with fp := none, kernel := k, log := s.log ++ [.closed h ok] } else .undefined

/-- An option, `Diminuto/bin/pintool.c:133-689`. -/
def step (patience : Nat) (o : Opt) (s : State σ) : Flow σ :=
  match o with
  | .first => .next { s with first := true }
  | .configure c => configure a c s
  | .root text => .next { s with kernel := a.root text s.kernel }
  | .daemon => match a.daemon s.kernel with | (ok, k) => if ok then .next { s with kernel := k, log := s.log ++ [.daemonized ok] } else .stop 2 { s with kernel := k, log := s.log ++ [.daemonized ok] }
  | .unique => .next { s with unique := true }
  | .command text => .next { s with command := some text }
  | .poll text => number text s fun u => acquire a false s (poll a patience (ticks u))
  | .write b => acquire a true s fun h s => store a h b s
  | .debug => .next s
  | .test nonzero => if s.state = nonzero then .next s else .stop 0 s
  | .watch none => acquire a false s (watch a patience)
  | .watch (some text) =>
    if (Number.signed text).2.1 ≠ [] then .stop 1 s
    else
      match timeout (Number.signed text).1 with
      | none => .undefined
      | some v => acquire a false { s with sticks := v } (watch a patience)
  | .pin text => number text s fun u => select a u s
  | .read => acquire a false s fun h s => sample a h s fun b s => .next (print b s)
  | .delay text => number text s fun u => .next { s with kernel := a.delay (ticks u) s.kernel, log := s.log ++ [.slept (ticks u)] }
  | .writeText text => number text s fun u => acquire a true s fun h s => store a h (u != 0) s
  | .menu => .next s
  | .other => .stop 1 s

/-- What a run comes to: it exits; it is still going on; or its behaviour is not defined. -/
inductive Outcome (σ : Type) where
  | exit (code : Nat) (s : State σ)
  | busy (s : State σ)
  | undefined

/-- The end, `Diminuto/bin/pintool.c:708-710`. -/
def finish (code : Nat) (s : State σ) : Outcome σ :=
  match s.fp with
  | none => .exit code s
  | some h => match a.close h s.kernel with | (ok, k) => .exit code { s with fp := none, kernel := k, log := s.log ++ [.closed h ok] }

/-- The loop, `Diminuto/bin/pintool.c:126-706`; each of the endless loops in it is followed for a number of times. -/
def loop (patience : Nat) : List Opt → State σ → Outcome σ
  | [], s => finish a 0 s
  | o :: r, s =>
    match step a patience o s with
    | .next s => loop patience r s
    | .stop code s => finish a code s
    | .busy s => .busy s
    | .undefined => .undefined

/-- The variables at the beginning, `Diminuto/bin/pintool.c:95-122`. -/
def start (k : σ) : State σ :=
  { first := false, unique := false, pin := -1, state := false, fp := none, command := none, sticks := -2, kernel := k, log := [] }

/-- `main`, `Diminuto/bin/pintool.c:93-711`. -/
def main (patience : Nat) (opts : List Opt) (k : σ) : Outcome σ := loop a patience opts (start k)

end

end Diminuto.Pintool
