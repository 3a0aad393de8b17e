import Verif.Model.WinCondVar

/-! Who waits, in terms of the trace of the condition variable of Windows (C115). -/

namespace Verif.WinCv

/-- Whether thread `u` is inside a call of a wait function that has been counted as a waiter or has released the user's lock. -/
def waits (u : Nat) (tr : List Ev) : Bool :=
  tr.foldl (fun b e => match e with
    | .registered t | .unlocked t => if t = u then true else b
    | .ret t _ => if t = u then false else b
    | _ => b) false

end Verif.WinCv
