import Verif.Model.LocksThrow
import Verif.Spec.Locks

/-! # What happens if destructors of lock objects cannot unlock -/

namespace Verif.LocksThrow

open Verif.Locks (Lock Kind Ans Ev Op St)

/-- The calls the mutexes have seen return. -/
def real (tr : List DEv) : List Ev := tr.filterMap fun | .call e => some e | _ => none

/-- How often a destructor was left by an exception because `m` could not be unlocked. -/
def failed (k : Kind) (m : Nat) (tr : List DEv) : Nat := tr.countP (· = .unlockThrew k m)

/-- The call destroys a lock object that owns a mutex: an object of the user, or the temporary of an assignment that takes over the old members. -/
def Drops (s : St) (c : Call) : Prop :=
  (∃ i l, c.op = .destroy i ∧ s[i]? = some (some l) ∧ l.owns = true) ∨
  ∃ i j l, c.op = .convertAssign i j ∧ s[i]? = some (some l) ∧ l.owns = true

end Verif.LocksThrow
