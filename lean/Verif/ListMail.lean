import Verif.List

/-!
# Model of mailboxes and of the questions about membership

`Diminuto/inc/com/diag/diminuto/diminuto_list.h:389-412` and `:540-572`.
-/

namespace Diminuto.DList

variable {N : Nat}

/-- `diminuto_list_isroot`, `Diminuto/inc/com/diag/diminuto/diminuto_list.h:389-391`. -/
def isRoot (h : Heap N) (nodep : Node N) : Bool := nodep = h.root nodep

/-- `diminuto_list_ismember`, `Diminuto/inc/com/diag/diminuto/diminuto_list.h:399-401`. -/
def isMember (h : Heap N) (rootp nodep : Node N) : Bool := rootp = h.root nodep

/-- `diminuto_list_aresiblings`, `Diminuto/inc/com/diag/diminuto/diminuto_list.h:410-412`. -/
def areSiblings (h : Heap N) (firstp secondp : Node N) : Bool := h.root firstp = h.root secondp

/-- The calls on mailboxes. -/
inductive Mail (N : Nat)
  | send (mbox mesg : Node N)
  | express (mbox mesg : Node N)
  | receive (mbox : Node N)
  | cancel (mesg : Node N)
deriving DecidableEq

/-- `diminuto_list_send`, `diminuto_list_express`, `diminuto_list_receive` and `diminuto_list_cancel`, `Diminuto/inc/com/diag/diminuto/diminuto_list.h:540-572`: the heap and the pointer returned. -/
def mail (h : Heap N) : Mail N → Option (Heap N × Option (Node N))
  | .send b m => (enqueue h b m).map (·, some m)
  | .express b m => (push h b m).map (·, some m)
  | .receive b => pop h b
  | .cancel m => (remove h m).map (·, some m)

/-- Calls one after the other. -/
def mails (h : Heap N) : List (Mail N) → Option (Heap N × List (Option (Node N)))
  | [] => some (h, [])
  | o :: os => (mail h o).bind fun r => (mails r.1 os).map fun rs => (rs.1, r.2 :: rs.2)

end Diminuto.DList
