import Verif.Model.Guards

/-!
# Guards when a mutex cannot be unlocked

Models lock_guard (locks/lock_guard.hpp 47-59), shared_lock_guard (locks/shared_lock_guard.hpp 46-58), unlock_guard (locks/unlock_guard.hpp 45-53) and ~unique_lock
(locks/unique_lock.hpp 167-171) for mutexes whose unlocking functions may throw, under the rules of C++11: the destructors of lock_guard, shared_lock_guard and unique_lock have no
exception specification and thus are `noexcept`, and so is the constructor of unlock_guard; an exception that reaches their end terminates the process.

Simplification: whether an unlocking function throws is a function of the guards around it, of what the thread holds and of the mutex; the rest as in `Verif.Guards`.
-/

namespace Verif.GuardsThrow

open Verif.Guards

/-- Does the call of the unlocking function throw (lock_guard.hpp 58, shared_lock_guard.hpp 57, unlock_guard.hpp 47, unique_lock.hpp 170, 261)? -/
abbrev Fails := Ctx → St → Nat → Bool

/-- A destructor of a guard of `m` (lock_guard.hpp 56-59, shared_lock_guard.hpp 55-58) that may not be left by an exception. -/
def guarded (f : Fails) (ctx : Ctx) (m : Nat) (dtor : Bool → St → Res) (u : Bool) (s : St) : Res :=
  if f ctx s m then .terminate else dtor u s

/-- `~unique_lock`, unique_lock.hpp 167-171: unlocks only if the object owns the mutex. -/
def uniqueDtorT (f : Fails) (ctx : Ctx) (u : Bool) (s : St) : Res :=
  match s.objs with
  | (m, true) :: _ => if f ctx s m then .terminate else uniqueDtor u s
  | _ => uniqueDtor u s

/-- Execution of a block with the guards of lock_guard.hpp 47-59, shared_lock_guard.hpp 46-58, unlock_guard.hpp 45-53. -/
def runT (f : Fails) : Prog → Ctx → St → List Ev × Res
  | .skip, _, s => ([], .ok s)
  | .probe, ctx, s => ([⟨ctx, s⟩], .ok s)
  | .throw_, _, s => ([], .exc s)
  | .seq p q, ctx, s =>
    match runT f p ctx s with
    | (es, .ok s') => (es ++ (runT f q ctx s').1, (runT f q ctx s').2)
    | r => r
  | .tryCatch p q, ctx, s =>
    match runT f p ctx s with
    | (es, .exc s') => (es ++ (runT f q ctx s').1, (runT f q ctx s').2)
    | r => r
  -- lock_guard.hpp 47-59
  | .lockGuard m _ fails body, ctx, s =>
    match lockM m fails s with
    | .threw => ([], .exc s)
    | .stuck => ([], .stuck)
    | .got s₁ =>
      let r := runT f body ((m, .locked) :: ctx) s₁
      (r.1, afterBody r.2 (guarded f ctx m (lockGuardDtor m)))
  -- shared_lock_guard.hpp 46-58
  | .sharedGuard m _ fails body, ctx, s =>
    match lockSharedM m fails s with
    | .threw => ([], .exc s)
    | .stuck => ([], .stuck)
    | .got s₁ =>
      let r := runT f body ((m, .shared) :: ctx) s₁
      (r.1, afterBody r.2 (guarded f ctx m (sharedGuardDtor m)))
  -- unlock_guard.hpp 45-53
  | .unlockGuard m fails body, ctx, s =>
    match unlockM m s with
    | none => ([], .misuse)
    | some s₁ =>
      if f ctx s m then ([], .terminate) else
      let r := runT f body ((m, .unlocked) :: ctx) s₁
      (r.1, afterBody r.2 (unlockGuardDtor m fails))
  -- unique_lock.hpp 72-76, 167-171
  | .uniqueLock m fails body, ctx, s =>
    match lockM m fails s with
    | .threw => ([], .exc s)
    | .stuck => ([], .stuck)
    | .got s₁ =>
      let r := runT f body ((m, .lockObj) :: ctx) { s₁ with objs := (m, true) :: s₁.objs }
      (r.1, afterBody r.2 (uniqueDtorT f ctx))
  -- unlock_guard.hpp 45-53 with unique_lock.hpp 253-263
  | .unlockLock i fails body, ctx, s =>
    match s.objs[i]? with
    | none => ([], .misuse)
    | some (_, false) => ([], .terminate)
    | some (m, true) =>
      match unlockM m s with
      | none => ([], .ub)
      | some s₁ =>
        if f ctx s m then ([], .terminate) else
        let r := runT f body ((m, .unlocked) :: ctx) { s₁ with objs := s₁.objs.set i (m, false) }
        (r.1, afterBody r.2 (unlockLockDtor i fails))

end Verif.GuardsThrow
