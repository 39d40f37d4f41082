import Verif.Reaper

/-!
# What the Reaper feature is meant to do
-/

namespace Diminuto.Reaper

/-- The children that have terminated and have not been waited for, with their statuses. -/
def zombies (s : List Child) : List (Int × Int) := s.filterMap fun c => c.status.map fun status => (c.pid, status)

/-- The process when it has been started. -/
def start : Sys := ⟨[], [], []⟩

/-- The states of a process, with all that has happened. -/
inductive Reaches : List Event → Sys → Prop where
  | start : Reaches [] start
  | step {l : List Event} {x y : Sys} {e : Event} : Reaches l x → Step x e y → Reaches (l ++ [e]) y

/-- The states of the program. -/
inductive Prog.Reaches (once : Bool) : Prog → Prop where
  | start : Prog.Reaches once ⟨Reaper.start, false, 0, .check⟩
  | step {x y : Prog} : Prog.Reaches once x → Prog.Step once x y → Prog.Reaches once y

end Diminuto.Reaper
