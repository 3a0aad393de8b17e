import Verif.Model.Guards

/-! # Balanced use of mutexes by guards -/

namespace Verif.Guards

/-- The promise of the innermost guard concerning exclusive ownership of `m`. -/
def innermost : Ctx → Nat → Option Promise
  | [], _ => none
  | (n, p) :: ctx, m => if n = m ∧ p ≠ .shared then some p else innermost ctx m

/-- What an observer at this point expects to see, where `h₀` is what the thread held at the beginning. -/
def Promised (h₀ : Nat → Held) (e : Ev) : Prop :=
  ∀ m, (e.s.held m).shared = (h₀ m).shared + e.ctx.count (m, .shared) ∧
    (innermost e.ctx m = some .locked → (e.s.held m).excl = true) ∧
    (innermost e.ctx m = some .unlocked → (e.s.held m).excl = false) ∧
    (innermost e.ctx m = some .lockObj → ((e.s.held m).excl = true ↔ (m, true) ∈ e.s.objs)) ∧
    (innermost e.ctx m = none → (e.s.held m).excl = (h₀ m).excl)

/-- Locking again in the destructor of an unlock_guard for a mutex succeeds, and that mutex is not one of those (`U`)
managed by unique_locks. -/
def Regular (U : Nat → Bool) : Prog → Prop
  | .skip | .probe | .throw_ => True
  | .seq p q | .tryCatch p q => Regular U p ∧ Regular U q
  | .lockGuard _ _ _ b | .sharedGuard _ _ _ b | .unlockLock _ _ b => Regular U b
  | .unlockGuard m f b => f = false ∧ U m = false ∧ Regular U b
  | .uniqueLock m _ b => U m = true ∧ Regular U b

/-- The program has no unlock_guard for a mutex. -/
def NoRawUnlock : Prog → Prop
  | .skip | .probe | .throw_ => True
  | .seq p q | .tryCatch p q => NoRawUnlock p ∧ NoRawUnlock q
  | .lockGuard _ _ _ b | .sharedGuard _ _ _ b | .unlockLock _ _ b | .uniqueLock _ _ b => NoRawUnlock b
  | .unlockGuard _ _ _ => False

end Verif.Guards
