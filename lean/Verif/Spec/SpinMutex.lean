import Verif.Model.SpinMutex

/-! Specification vocabulary for `spin_mutex`: functions of the trace of returned calls only. -/

namespace Verif.Spin

/-- Release events. -/
def relOf : Ev → Option Nat
  | .unlocked t => some t
  | _ => none

/-- Work events. -/
def workOf : Ev → Option (Nat × Nat)
  | .work t id => some (t, id)
  | _ => none

/-- Specification, on traces only: does thread `t` hold the mutex after the calls recorded in the trace?
It does if the last thing it was told is that `lock` returned or `try_lock` returned true. -/
def holdsUpd (t : Nat) (b : Bool) : Ev → Bool
  | .locked t' => if t' = t then true else b
  | .tried t' ok => if t' = t then ok || b else b
  | .unlocked t' => if t' = t then false else b
  | .work _ _ => b

def holds (tr : List Ev) (t : Nat) : Bool := tr.foldl (holdsUpd t) false

end Verif.Spin
