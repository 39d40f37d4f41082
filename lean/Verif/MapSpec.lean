import Verif.Map

/-!
# Specification: mapped memory
-/

namespace Diminuto.Map

/-- A number of bytes, in whole pages. -/
def whole (page size : Nat) : Nat := (size + page - 1) / page * page

/-- The virtual address is in a region that begins at a base and has a size. -/
def within (page base size v : Nat) : Prop := base ≤ v ∧ v < base + whole page size

instance (page base size v : Nat) : Decidable (within page base size v) := inferInstanceAs (Decidable (_ ∧ _))

/-- The calls do what their manuals say about the virtual memory of the process, which assigns physical addresses to some of the virtual ones. -/
structure Honest {σ : Type} (w : World σ) (page : Nat) (memory : σ → Nat → Option Nat) : Prop where
  open_ : ∀ s, memory (w.open_ s).2 = memory s
  close : ∀ fd s, memory (w.close fd s).2 = memory s
  failed : ∀ n fd a s s', w.mmap n fd a s = (none, s') → memory s' = memory s
  mapped : ∀ n fd a s s' base, w.mmap n fd a s = (some base, s') →
    0 < n.toNat ∧ a.toNat % page = 0 ∧ 0 < base.toNat ∧ base.toNat % page = 0 ∧ base.toNat + whole page n.toNat ≤ 2 ^ 64 ∧
    (∀ v, within page base.toNat n.toNat v → memory s v = none) ∧
    memory s' = fun v => if within page base.toNat n.toNat v then some (a.toNat + (v - base.toNat)) else memory s v
  kept : ∀ b n s s' rc, w.munmap b n s = (rc, s') → rc < 0 → memory s' = memory s
  unmapped : ∀ b n s s' rc, w.munmap b n s = (rc, s') → 0 ≤ rc → rc = 0 ∧ memory s' = fun v => if within page b.toNat n.toNat v then none else memory s v

/-- The calls, with a note of the descriptors that are open and of whether one was closed that was not.  `fclose(3)` closes the descriptor whether it succeeds or not. -/
def tracked {σ : Type} (w : World σ) : World (σ × List Int × Bool) where
  open_ := fun s => let r := w.open_ s.1; (r.1, r.2, if r.1 < 0 then s.2.1 else r.1 :: s.2.1, s.2.2)
  mmap := fun n fd a s => let r := w.mmap n fd a s.1; (r.1, r.2, s.2)
  munmap := fun b n s => let r := w.munmap b n s.1; (r.1, r.2, s.2)
  close := fun fd s => let r := w.close fd s.1; (r.1, r.2, s.2.1.erase fd, s.2.2 || decide (fd ∉ s.2.1))
  getuid := fun s => w.getuid s.1
  geteuid := fun s => w.geteuid s.1
  openmin := fun s => let r := w.openmin s.1; (r.1, r.2, if r.1 < 0 then s.2.1 else r.1 :: s.2.1, s.2.2)
  fdopen := fun fd s => let r := w.fdopen fd s.1; (r.1, r.2, s.2)
  fprintf := fun fd v s => let r := w.fprintf fd v s.1; (r.1, r.2, s.2)
  fclose := fun fd s => let r := w.fclose fd s.1; (r.1, r.2, s.2.1.erase fd, s.2.2 || decide (fd ∉ s.2.1))

/-- A machine with pages of 4096 bytes and one place for a mapping, at 65536, of at most 2^32 bytes; the state is the mapping and the value of the file, where a stream keeps what is printed until
it is closed.  The flag tells that the file cannot be written. -/
def machine (full : Bool) : World (Option (Nat × Nat) × Nat × Option Nat) where
  open_ := fun s => (3, s)
  mmap := fun n _ a s =>
    if 0 < n.toNat ∧ n.toNat ≤ 2 ^ 32 ∧ a.toNat % 4096 = 0 ∧ s.1 = none then (some 65536#64, some (n.toNat, a.toNat), s.2) else (none, s)
  munmap := fun b n s =>
    match s.1 with
    | none => (0, s)
    | some (m, _) => if b = 65536#64 ∧ whole 4096 n.toNat = whole 4096 m then (0, none, s.2) else (-1, s)
  close := fun _ s => (0, s)
  getuid := fun _ => 0
  geteuid := fun _ => 0
  openmin := fun s => (3, s)
  fdopen := fun _ s => (true, s)
  fprintf := fun _ v s => (1, s.1, s.2.1, some v.toNat)
  fclose := fun _ s => if full then (false, s.1, s.2.1, none) else (true, s.1, s.2.2.getD s.2.1, none)

/-- The virtual memory of the machine. -/
def memory (s : Option (Nat × Nat) × Nat × Option Nat) : Nat → Option Nat := fun v =>
  match s.1 with
  | none => none
  | some (n, a) => if within 4096 65536 n v then some (a + (v - 65536)) else none

end Diminuto.Map
