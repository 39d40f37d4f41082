/-!
# Model of the Module feature

`Diminuto/src/diminuto_module.c`, with the dynamic linker as the number of times that each module is open.
-/

namespace Diminuto.Module

/-- How `dlopen(3)` and `dlclose(3)` behave where POSIX does not say how. -/
inductive Platform where
  /-- What POSIX says, and no more: to close a handle that is not open is undefined. -/
  | posix
  /-- `dlclose` of a handle that is not open fails, and `dlopen` fails if neither `RTLD_LAZY` nor `RTLD_NOW` is given. -/
  | glibc
  /-- `dlclose` always succeeds, as the comment at `Diminuto/src/diminuto_module.c:107-111` says of bionic and Cygwin. -/
  | bionic
deriving DecidableEq

/-- The dynamic linker: how many times a module is open.  A module is the number of its file, and its handle is that number; null is `none`. -/
abbrev Linker := Nat → Nat

/-- The flags as in Linux for x86 and ARM. -/
def RTLD_LAZY : BitVec 32 := 0x1#32
def RTLD_NOW : BitVec 32 := 0x2#32
def RTLD_NOLOAD : BitVec 32 := 0x4#32
def RTLD_DEEPBIND : BitVec 32 := 0x8#32
def RTLD_GLOBAL : BitVec 32 := 0x100#32

/-- `dlopen(3)`; `exists?` is whether there is such a module in the file and it can be loaded.  With `RTLD_NOLOAD` a module is not loaded, but the handle of one that is loaded is returned and counted. -/
def dlopen (platform : Platform) (exists? : Nat → Bool) (file : Nat) (flags : BitVec 32) (s : Linker) : Option Nat × Linker :=
  if platform = .glibc ∧ flags &&& (RTLD_LAZY ||| RTLD_NOW) = 0#32 then (none, s)
  else if flags &&& RTLD_NOLOAD ≠ 0#32 ∧ s file = 0 then (none, s)
  else if s file = 0 ∧ exists? file = false then (none, s)
  else (some file, fun f => if f = file then s f + 1 else s f)

/-- `dlclose(3)`: what it returns; nothing, if the behaviour is undefined. -/
def dlclose (platform : Platform) (handle : Nat) (s : Linker) : Option (Int × Linker) :=
  if s handle = 0 then
    match platform with
    | .posix => none
    | .glibc => some (-1, s)
    | .bionic => some (0, s)
  else some (0, fun f => if f = handle then s f - 1 else s f)

/-- `diminuto_module_load_generic`, `Diminuto/src/diminuto_module.c:23-38`: the handle, and whether an error is logged. -/
def loadGeneric (platform : Platform) (exists? : Nat → Bool) (file : Nat) (flags : BitVec 32) (s : Linker) : Option Nat × Bool × Linker :=
  let (handle, s) := dlopen platform exists? file flags s
  (handle, if handle ≠ none then false else if flags &&& RTLD_NOLOAD = RTLD_NOLOAD then false else true, s)

/-- `diminuto_module_handle`, `Diminuto/src/diminuto_module.c:40-48`. -/
def handle (platform : Platform) (exists? : Nat → Bool) (file : Nat) (s : Linker) : Option Nat × Bool × Linker :=
  loadGeneric platform exists? file RTLD_NOLOAD s

/-- `diminuto_module_load`, `Diminuto/src/diminuto_module.c:50-58`. -/
def load (platform : Platform) (exists? : Nat → Bool) (file : Nat) (s : Linker) : Option Nat × Bool × Linker :=
  loadGeneric platform exists? file (RTLD_LAZY ||| RTLD_GLOBAL ||| RTLD_DEEPBIND) s

/-- The loop of `diminuto_module_unload`, `Diminuto/src/diminuto_module.c:123-125`; it is left without a result when `fuel` is used up, and the second component is then `none`. -/
def close (platform : Platform) (h : Nat) (force : Bool) : Nat → Linker → Option (Option Int × Linker)
  | 0, s => some (none, s)
  | fuel + 1, s =>
    match dlclose platform h s with
    | none => none
    | some (rc, s) => if force ∧ rc = 0 then close platform h force fuel s else some (some rc, s)

/-- What becomes of `diminuto_module_unload`. -/
inductive Outcome where
  /-- The behaviour is undefined. -/
  | undefined
  /-- It is still in its loop. -/
  | busy
  /-- It has returned this, and this is the dynamic linker then. -/
  | done (h : Option Nat) (s : Linker)

/-- `diminuto_module_unload`, `Diminuto/src/diminuto_module.c:98-137`, in so many iterations; `compiled` is the platform for which it has been compiled: `force` is ignored for bionic and Cygwin. -/
def unload (compiled platform : Platform) (h : Nat) (force : Bool) (fuel : Nat) (s : Linker) : Outcome :=
  let force := if compiled = .bionic then false else force
  match close platform h force fuel s with
  | none => .undefined
  | some (none, _) => .busy
  | some (some rc, s) => if force then .done none s else if rc = 0 then .done none s else .done (some h) s

end Diminuto.Module
