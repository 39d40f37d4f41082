import Verif.Phex
import Verif.Number

/-!
# Model of the tool that prints its input in hexadecimal

Models `Diminuto/bin/phex.c`.  `getopt(3)` is left out: the options come with their arguments, and one that is unknown is `-?`, which is what `getopt(3)` returns, so that the default, `:113-116`, cannot be reached.  Errors of the streams and what is done with a terminal are left out, and so are messages.
-/

namespace Diminuto.Phextool

open Phex

/-- The options, `Diminuto/bin/phex.c:75`. -/
inductive Opt where
  | esc
  | length (text : List Byte)
  | nl
  | tee
  | hex
  | menu
deriving DecidableEq

/-- The variables, `Diminuto/bin/phex.c:60-66`; the length is 80 at the beginning, `:44`. -/
structure Config where
  length : BitVec 64 := 80#64
  nl : Bool := false
  esc : Bool := false
  hex : Bool := false
  tee : Bool := false
deriving DecidableEq

/-- What comes of an option: the variables, or the exit status. -/
inductive Step where
  | ok (c : Config)
  | exits (status : Nat)
deriving DecidableEq

/-- The switch, `Diminuto/bin/phex.c:77-118`.  No number is greater than `~0UL`, `:87`, where `unsigned long` has 64 bits. -/
def option (c : Config) : Opt → Step
  | .esc => .ok { c with esc := true }
  | .length t => if (Number.unsigned t).2.1 ≠ [] then .exits 1 else .ok { c with length := BitVec.ofNat 64 (Number.unsigned t).1 }
  | .nl => .ok { c with nl := true }
  | .tee => .ok { c with tee := true }
  | .hex => .ok { c with hex := true }
  | .menu => .exits 0

/-- The loop over the options, `Diminuto/bin/phex.c:75-120`. -/
def options (c : Config) : List Opt → Step
  | [] => .ok c
  | o :: r =>
    match option c o with
    | .ok c => options c r
    | x => x

/-- The exit status, and what is on the two streams. -/
structure Outcome where
  status : Nat
  stdout : List Byte
  stderr : List Byte
deriving DecidableEq

/-- What is printed of the input, `Diminuto/bin/phex.c:130-135`. -/
def prints (c : Config) (input : List Byte) : Option (List Byte) :=
  (emitAll ⟨c.length, c.nl, c.esc, c.hex⟩ input {}).map fun r => r.1 ++ (limit c.length 0#64 r.2).1

/-- `main`, `Diminuto/bin/phex.c:58-138`.  With `-t` the input is copied, `:132`. -/
def main (opts : List Opt) (input : List Byte) : Option Outcome :=
  match options {} opts with
  | .exits n => some ⟨n, [], []⟩
  | .ok c => (prints c input).map fun out => if c.tee then ⟨0, input, out⟩ else ⟨0, out, []⟩

end Diminuto.Phextool
