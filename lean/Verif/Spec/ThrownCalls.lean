import Verif.Spec.SyncObjects

/-!
# Histories without the calls that were left by an exception

`withoutThrown tr` is what remains of the history `tr` when every call that threw is removed together with the reports of its
timeout.  Calls that returned and calls that are still in progress stay.
-/

namespace Verif.Atomic

variable {S : Type}

/-- Walks through a reversed history; `X t`: the call of thread `t` in progress at this point throws later. -/
def dropThrown (X : Nat → Bool) : List (Ev S) → List (Ev S)
  | [] => []
  | .threw t _ :: r => dropThrown (fun u => u == t || X u) r
  | .called t op :: r => if X t then dropThrown (fun u => u != t && X u) r else .called t op :: dropThrown X r
  | .timedOut t :: r => if X t then dropThrown X r else .timedOut t :: dropThrown X r
  | .ret t op b :: r => .ret t op b :: dropThrown X r

def withoutThrown (tr : List (Ev S)) : List (Ev S) := (dropThrown (fun _ => false) tr.reverse).reverse

def Ev.isRet : Ev S → Bool
  | .ret _ _ _ => true
  | _ => false

def Ev.isThrown : Ev S → Bool
  | .threw _ _ => true
  | _ => false

end Verif.Atomic
