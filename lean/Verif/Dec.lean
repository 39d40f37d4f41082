import Verif.Number

/-!
# Model of the tool that converts numbers

`Diminuto/bin/dec.c`, which is installed under the names `dec`, `oct`, `hex`, `ntohs`, `htons`, `ntohl` and `htonl`.  The standard input is the list of its bytes; failures to read or write are not modelled.  That the program prints each
number before it reads the next line only matters to a reader that waits for it: here the strings are the list of them.
-/

namespace Diminuto.Dec

/-- `Diminuto/bin/dec.c:42-50`. -/
inductive Command where
  | oct | dec | hex | ntohs | htons | ntohl | htonl
deriving DecidableEq

/-- The characters of a literal. -/
def ascii (s : String) : List Byte := s.toList.map fun c => BitVec.ofNat 8 c.toNat

/-- The name after the last slash, `Diminuto/bin/dec.c:65-66`. -/
def name (argv0 : List Byte) : List Byte := (argv0.reverse.takeWhile (· ≠ 47#8)).reverse

/-- The command by name, `Diminuto/bin/dec.c:68-82`. -/
def command (argv0 : List Byte) : Command :=
  if name argv0 = ascii "hex" then .hex
  else if name argv0 = ascii "oct" then .oct
  else if name argv0 = ascii "ntohs" then .ntohs
  else if name argv0 = ascii "htons" then .htons
  else if name argv0 = ascii "ntohl" then .ntohl
  else if name argv0 = ascii "htonl" then .htonl
  else .dec

/-- The digits that `printf(3)` prints for `%o`, `%u` and `%x`; the first argument is the most digits there may be. -/
def printed (base : Nat) : Nat → Nat → List Byte
  | 0, _ => []
  | most + 1, n =>
    let character := fun v => BitVec.ofNat 8 (if v < 10 then 48 + v else 87 + v)
    if n < base then [character n] else printed base most (n / base) ++ [character (n % base)]

/-- `ntohs(3)` and `htons(3)`, of the lower bits of a number. -/
def short (little : Bool) (value : BitVec 64) : Nat :=
  let v := value.setWidth 16
  (if little then v.extractLsb' 0 8 ++ v.extractLsb' 8 8 else v).toNat

/-- `ntohl(3)` and `htonl(3)`. -/
def long (little : Bool) (value : BitVec 64) : Nat :=
  let v := value.setWidth 32
  (if little then v.extractLsb' 0 8 ++ (v.extractLsb' 8 8 ++ (v.extractLsb' 16 8 ++ v.extractLsb' 24 8)) else v).toNat

/-- What is printed for a value, `Diminuto/bin/dec.c:107-130`. -/
def line (little : Bool) (c : Command) (value : BitVec 64) : List Byte :=
  (match c with
    | .oct => 48#8 :: printed 8 64 value.toNat
    | .hex => 48#8 :: 120#8 :: printed 16 64 value.toNat
    | .ntohs | .htons => printed 10 64 (short little value)
    | .ntohl | .htonl => printed 10 64 (long little value)
    | .dec => printed 10 64 value.toNat) ++ [10#8]

/-- What a run comes to: the exit status and what has been printed, or behaviour that is not defined. -/
inductive Outcome where
  | exit (status : Nat) (out : List Byte)
  | undefined
deriving DecidableEq

/-- Whether what follows a number is accepted, `Diminuto/bin/dec.c:102`; nothing if `isspace(3)` is given a negative `char` that is not `EOF`, which is the case for other characters than those of ASCII where `char` is signed. -/
def accepted : List Byte → Option Bool
  | [] => some true
  | b :: _ => if 128#8 ≤ b ∧ b ≠ 255#8 then none else some (Number.isSpace b)

/-- The loop, `Diminuto/bin/dec.c:99-144`. -/
def loop (little : Bool) (c : Command) : List (List Byte) → List Byte → Outcome
  | [], out => .exit 0 out
  | s :: r, out =>
    match accepted (Number.unsigned s).2.1 with
    | none => .undefined
    | some false => .exit 3 out
    | some true => loop little c r (out ++ line little c (BitVec.ofNat 64 (Number.unsigned s).1))

/-- `fgets(3)`: at most the given number of characters, up to a newline, and what is left. -/
def getline : Nat → List Byte → List Byte × List Byte
  | 0, input => ([], input)
  | _ + 1, [] => ([], [])
  | n + 1, b :: input => if b = 10#8 then ([b], input) else (b :: (getline n input).1, (getline n input).2)

/-- The strings that `fgets(3)` returns for a buffer of 64 bytes, one after the other, `Diminuto/bin/dec.c:57`, `:87`, `:133`; a string ends with a NUL.  The number of characters is enough as the first argument. -/
def strings : Nat → List Byte → List (List Byte)
  | 0, _ => []
  | _ + 1, [] => []
  | n + 1, b :: input => (getline 63 (b :: input)).1.takeWhile (· ≠ 0#8) :: strings n (getline 63 (b :: input)).2

/-- `main`, `Diminuto/bin/dec.c:52-146`. -/
def main (little : Bool) (argv0 : List Byte) (args : List (List Byte)) (input : List Byte) : Outcome :=
  let texts := if args = [] ∨ args = [ascii "-"] then strings input.length input else args
  if texts = [] then .exit 2 [] else loop little (command argv0) texts []

end Diminuto.Dec
