import Verif.ListMail

/-!
# Specification of mailboxes

Every mailbox has a sequence of messages.
-/

namespace Diminuto.DList

variable {N : Nat}

/-- The messages of every mailbox. -/
abbrev Boxes (N : Nat) := Fin N → List (Fin N)

/-- What a call does: a message that is sent leaves the mailbox in which it was and becomes the last, or if it is sent express the first; the first is received; a message that is cancelled leaves its mailbox. -/
def specMail (f : Boxes N) : Mail N → Boxes N × Option (Fin N)
  | .send b m => (fun c => if c = b then (f c).erase m ++ [m] else (f c).erase m, some m)
  | .express b m => (fun c => if c = b then m :: (f c).erase m else (f c).erase m, some m)
  | .receive b => (fun c => if c = b then (f c).tail else f c, (f b).head?)
  | .cancel m => (fun c => (f c).erase m, some m)

/-- The calls one after the other. -/
def specMails (f : Boxes N) : List (Mail N) → Boxes N × List (Option (Fin N))
  | [] => (f, [])
  | o :: os => ((specMails (specMail f o).1 os).1, (specMail f o).2 :: (specMails (specMail f o).1 os).2)

/-- Mailboxes are used as such and messages as such. -/
def Proper (box : Fin N → Bool) : Mail N → Prop
  | .send b m | .express b m => box b = true ∧ box m = false
  | .receive b => box b = true
  | .cancel m => box m = false

/-- No message is sent, other than express, to the mailbox of which it is the last. -/
def NotLast : Boxes N → List (Mail N) → Prop
  | _, [] => True
  | f, o :: os => (∀ b m, o = .send b m → (f b).getLast? ≠ some m) ∧ NotLast (specMail f o).1 os

end Diminuto.DList
