import Verif.Pin

/-!
# Model of the tool that gets and puts a pin

`Diminuto/bin/gpiotool.c:38-94`.  The arguments are those after the name of the program.  Messages are left out.
-/

namespace Diminuto.Gpiotool

open Pin

/-- What the program leaves: the exit status, what it has printed, and the state. -/
structure Outcome (σ : Type) where
  status : Nat
  printed : List Byte
  state : σ
deriving DecidableEq

/-- The conversion of the number of a pin, `Diminuto/bin/gpiotool.c:42`, to the argument of type `int`, `:61` and `:80`. -/
def narrow (n : Nat) : Int := (BitVec.ofNat 32 n).toInt

/-- `diminuto_pin_input` and `diminuto_pin_get`, then the end, `Diminuto/bin/gpiotool.c:61-69` and `:91-93`. -/
def gets {σ : Type} (w : World σ) (root : Name) (ticks : BitVec 64) (tries : Nat) (pin : Int) (s : σ) : Outcome σ :=
  match setup w root ticks tries pin false s with
  | (none, s) => ⟨1, [], s⟩
  | (some fp, s) =>
    match get w fp s with
    | (state, s) =>
      if state < 0 then ⟨1, [], (unused w root ticks (some fp) pin s).2⟩
      else ⟨0, [if state ≠ 0 then 49#8 else 48#8, 10#8], (unused w root ticks (some fp) pin s).2⟩

/-- `diminuto_pin_output` and `diminuto_pin_put`, then the end, `Diminuto/bin/gpiotool.c:80-93`. -/
def puts {σ : Type} (w : World σ) (root : Name) (ticks : BitVec 64) (tries : Nat) (pin : Int) (value : Nat) (s : σ) : Outcome σ :=
  match setup w root ticks tries pin true s with
  | (none, s) => ⟨1, [], s⟩
  | (some fp, s) =>
    match put w fp (decide (value ≠ 0)) s with
    | (ok, s) => ⟨if ok then 0 else 1, [], (unused w root ticks (some fp) pin s).2⟩

/-- `main`, `Diminuto/bin/gpiotool.c:38-94`.  Where there is no stream `diminuto_pin_unused`, `:91`, does nothing; without arguments its second argument has no value. -/
def main {σ : Type} (w : World σ) (root : Name) (ticks : BitVec 64) (tries : Nat) (args : List (List Byte)) (s : σ) : Outcome σ :=
  match args with
  | [] => ⟨1, [], s⟩
  | p :: rest =>
    if (Number.unsigned p).2.1 ≠ [] then ⟨1, [], s⟩
    else
      match rest with
      | [] => gets w root ticks tries (narrow (Number.unsigned p).1) s
      | v :: more =>
        if (Number.unsigned v).2.1 ≠ [] then ⟨1, [], s⟩
        else
          match more with
          | [] => puts w root ticks tries (narrow (Number.unsigned p).1) (Number.unsigned v).1 s
          | _ :: _ => ⟨1, [], s⟩

end Diminuto.Gpiotool
