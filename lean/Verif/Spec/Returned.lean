import Verif.Spec.SyncObjects

/-!
# Which calls have returned

A thread whose wait has succeeded may know that every `post`, `set` or `unlock` that was ever called has been consumed.  It may
then destroy the object if those calls make no further access to it.  In a history this shows if a wait never returns before
the signal it consumed: the successful waits never outnumber the signals that have returned.
-/

namespace Verif.Atomic

variable {S : Type}

/-- Calls of `set` that have returned. -/
def setsDone (tr : List (Ev SetReset)) : Nat :=
  tr.countP (fun e => match e with | .ret _ (.sig .set) _ => true | _ => false)

/-- Calls of `set` so far. -/
def setsCalled (tr : List (Ev SetReset)) : Nat :=
  tr.countP (fun e => match e with | .called _ (.sig .set) => true | _ => false)

/-- Thread `t` is executing a signalling operation, according to the calls and returns. -/
def signalling (tr : List (Ev S)) (t : Nat) : Prop := ∃ x e, prog tr t = some (.sig x, e)

end Verif.Atomic
