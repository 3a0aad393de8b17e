import Verif.Model.SharedSpinMutex

/-! Specification vocabulary for `shared_spin_mutex`: functions of the trace of returned calls only. -/

namespace Verif.SharedSpin

/-- Releases of exclusive ownership. -/
def relExOf : Ev → Option Nat
  | .unlocked t => some t
  | _ => none

/-- Releases of any ownership. -/
def relAnyOf : Ev → Option Nat
  | .unlocked t => some t
  | .unlockedShared t => some t
  | _ => none

def workOf : Ev → Option (Nat × Nat)
  | .work t id => some (t, id)
  | _ => none

/-- Kind of ownership of one thread. -/
inductive Own
  | none | exclusive | shared
  deriving DecidableEq, Repr

def ownUpd (t : Nat) (b : Own) : Ev → Own
  | .locked t' => if t' = t then .exclusive else b
  | .tried t' ok => if t' = t ∧ ok = true then .exclusive else b
  | .unlocked t' => if t' = t then .none else b
  | .lockedShared t' => if t' = t then .shared else b
  | .triedShared t' ok => if t' = t ∧ ok = true then .shared else b
  | .unlockedShared t' => if t' = t then .none else b
  | .work _ _ => b

/-- Ownership of thread `t` according to the calls that returned. -/
def ownership (tr : List Ev) (t : Nat) : Own := tr.foldl (ownUpd t) .none

end Verif.SharedSpin
