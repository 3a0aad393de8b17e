import Verif.Model.LockMembers

/-!
# What the lock classes should need of a mutex

The names follow a rule: `lock`, `lock_shared`, `lock_upgrade`, with `try_` or `timed_` in front and `_for` or `_until` behind, and `unlock…_and_lock…` for conversions.  A member
should be usable with every mutex that has the function named like it.
-/

namespace Verif.LockMembers

/-- The part of the names of functions of a mutex that says how it is locked. -/
def suffix : Lock → String
  | .unique => ""
  | .shared => "_shared"
  | .upgrade => "_upgrade"

/-- The members a class should offer besides the usual ones: from a stronger lock a conversion always succeeds; to a stronger one it has to be tried,
except from `upgrade_lock`, whose conversion waits for the shared locks. -/
def Offered (l : Lock) : Member → Prop
  | .convert s => (s = .unique ∧ l = .upgrade) ∨ (s = .unique ∧ l = .shared) ∨ (s = .upgrade ∧ l = .shared) ∨ (s = .upgrade ∧ l = .unique)
  | .assignFrom s => (s = .unique ∧ l = .upgrade) ∨ (s = .unique ∧ l = .shared) ∨ (s = .upgrade ∧ l = .shared) ∨ (s = .upgrade ∧ l = .unique)
  | .convertTry s => (s = .upgrade ∧ l = .unique) ∨ (s = .shared ∧ l = .unique) ∨ (s = .shared ∧ l = .upgrade)
  | .convertTimed s => (s = .shared ∧ l = .unique) ∨ (s = .shared ∧ l = .upgrade)
  | _ => True

/-- The name of the conversion. -/
def conversion (s l : Lock) : String := "unlock" ++ suffix s ++ "_and_lock" ++ suffix l

/-- The functions of the mutex that are needed. -/
def needed (l : Lock) : Member → List String
  | .ctor | .lock => ["lock" ++ suffix l]
  | .ctorTry | .tryLock => ["try_lock" ++ suffix l]
  | .ctorTime | .timedLock => ["timed_lock" ++ suffix l]
  | .tryLockFor => ["try_lock" ++ suffix l ++ "_for"]
  | .tryLockUntil => ["try_lock" ++ suffix l ++ "_until"]
  | .unlock | .dtor => ["unlock" ++ suffix l]
  | .convert s => [conversion s l]
  | .convertTry s => ["try_" ++ conversion s l]
  | .convertTimed s => ["timed_" ++ conversion s l]
  | .assignFrom s => [conversion s l, "unlock" ++ suffix l]
  | .ctorAdopt | .ctorDefer | .move | .assign | .swap => []

/-- Conversions that do not have to be tried. -/
def Converts : Member → Prop
  | .convert _ | .assignFrom _ => True
  | _ => False

end Verif.LockMembers
