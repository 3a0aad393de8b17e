/-!
# lock_guard, shared_lock_guard, unlock_guard

Models locks/lock_guard.hpp 47-59, locks/shared_lock_guard.hpp 46-58 and locks/unlock_guard.hpp 45-53 together with the
C++ rules for leaving scopes.  A program is a block of one thread made of guard scopes, sequencing, exceptions and handlers;
`run` executes it on the mutexes as held by this thread (waiting for other threads is not visible: a lock function returns
once it has the mutex).  Whether a lock function throws is part of the program, so all behaviours are covered by all programs.
The lockable of an unlock_guard is a mutex (`unlockGuard`) or a unique_lock (`unlockLock`, locks/unique_lock.hpp 72-76,
167-171, 186-196, 253-263).

Simplifications: mutexes are not recursive in exclusive mode; unlock functions called by guards do not throw
(for these see `Verif.GuardsThrow`).
-/

namespace Verif.Guards

/-- What this thread holds of one mutex, the argument of the guards (lock_guard.hpp 47-59, shared_lock_guard.hpp 46-58, unlock_guard.hpp 45-53). -/
structure Held where
  excl : Bool
  shared : Nat
  deriving DecidableEq, Repr

/-- The mutexes, and the unique_lock objects of the enclosing blocks (innermost first): mutex and `m_is_locked` (unique_lock.hpp 60-61). -/
structure St where
  held : Nat → Held
  objs : List (Nat × Bool)

/-- What a guard promises about its mutex (lock_guard.hpp 47-59, shared_lock_guard.hpp 46-58, unlock_guard.hpp 45-53; unique_lock.hpp 72-76). -/
inductive Promise
  | locked | unlocked
  /-- a unique_lock: locked as long as the lock object owns it -/
  | lockObj
  | shared
  deriving DecidableEq, Repr

/-- The guards around a point of the program, innermost first (not in the code: the scopes of
lock_guard.hpp 47-59, shared_lock_guard.hpp 46-58, unlock_guard.hpp 45-53). -/
abbrev Ctx := List (Nat × Promise)

/-- Programs of a user of the guards
(lock_guard.hpp 47-59, shared_lock_guard.hpp 46-58, unlock_guard.hpp 45-53; unique_lock.hpp 72-76, 167-171); exceptions and handlers are those of C++. -/
inductive Prog
  | skip
  /-- an observation -/
  | probe
  | throw_
  | seq (p q : Prog)
  /-- `try { p } catch (...) { q }` -/
  | tryCatch (p q : Prog)
  /-- `lock_guard g(m); body`, or, if `adopt`, `m.lock(); lock_guard g(m, adopt_lock); body` -/
  | lockGuard (m : Nat) (adopt fails : Bool) (body : Prog)
  | sharedGuard (m : Nat) (adopt fails : Bool) (body : Prog)
  /-- `unlock_guard<mutex> g(m); body` -/
  | unlockGuard (m : Nat) (relockFails : Bool) (body : Prog)
  /-- `unique_lock l(m); body` -/
  | uniqueLock (m : Nat) (fails : Bool) (body : Prog)
  /-- `unlock_guard<unique_lock> g(l); body` for the `i`-th enclosing unique_lock -/
  | unlockLock (i : Nat) (relockFails : Bool) (body : Prog)
  deriving Repr

/-- How a block is left, under the C++ rules for constructors and destructors of lock_guard.hpp 47-59, shared_lock_guard.hpp 46-58, unlock_guard.hpp 45-53. -/
inductive Res
  | ok (s : St)
  /-- left by an exception -/
  | exc (s : St)
  /-- self-deadlock -/
  | stuck
  /-- precondition of an unlock_guard violated by the user: the mutex is not locked -/
  | misuse
  /-- a guard unlocks a mutex that is not locked -/
  | ub
  /-- `std::terminate` -/
  | terminate

/-- The observation made by `probe` inside the scopes of lock_guard.hpp 47-59, shared_lock_guard.hpp 46-58, unlock_guard.hpp 45-53: where and what. -/
structure Ev where
  ctx : Ctx
  s : St

/-- A call of a function of the mutex changes what is held (lock_guard.hpp 49, 58; shared_lock_guard.hpp 48, 57; unlock_guard.hpp 47, 52). -/
def setHeld (s : St) (m : Nat) (h : Held) : St := { s with held := fun n => if n = m then h else s.held n }

/-- The result of a lock function of the mutex (lock_guard.hpp 49, shared_lock_guard.hpp 48, unlock_guard.hpp 52). -/
inductive Acq
  | got (s : St)
  | threw
  | stuck

/-- `m.lock()` (lock_guard.hpp 49, unlock_guard.hpp 52). -/
def lockM (m : Nat) (fails : Bool) (s : St) : Acq :=
  if fails then .threw
  else if (s.held m).excl || (s.held m).shared != 0 then .stuck
  else .got (setHeld s m { s.held m with excl := true })

/-- `m.unlock()` (lock_guard.hpp 58, unlock_guard.hpp 47); `none`: not locked. -/
def unlockM (m : Nat) (s : St) : Option St :=
  if (s.held m).excl then some (setHeld s m { s.held m with excl := false }) else none

/-- `m.lock_shared()` (shared_lock_guard.hpp 48). -/
def lockSharedM (m : Nat) (fails : Bool) (s : St) : Acq :=
  if fails then .threw
  else if (s.held m).excl then .stuck
  else .got (setHeld s m { s.held m with shared := (s.held m).shared + 1 })

/-- `m.unlock_shared()` (shared_lock_guard.hpp 57); `none`: not locked. -/
def unlockSharedM (m : Nat) (s : St) : Option St :=
  if (s.held m).shared = 0 then none else some (setHeld s m { s.held m with shared := (s.held m).shared - 1 })

/-- After a destructor (lock_guard.hpp 59, shared_lock_guard.hpp 58, unlock_guard.hpp 53) the block is left as before: by an exception
(`u`) or not. -/
def leave (u : Bool) (s : St) : Res := if u then .exc s else .ok s

/-- A destructor (lock_guard.hpp 56-59, shared_lock_guard.hpp 55-58, unlock_guard.hpp 50-53) runs after the body: `u` tells whether an
exception is being propagated. -/
def afterBody (r : Res) (dtor : Bool → St → Res) : Res :=
  match r with
  | .ok s => dtor false s
  | .exc s => dtor true s
  | r => r

/-- `~lock_guard`, lock_guard.hpp 56-59. -/
def lockGuardDtor (m : Nat) (u : Bool) (s : St) : Res :=
  match unlockM m s with
  | some s' => leave u s'
  | none => .ub

/-- `~shared_lock_guard`, shared_lock_guard.hpp 55-58. -/
def sharedGuardDtor (m : Nat) (u : Bool) (s : St) : Res :=
  match unlockSharedM m s with
  | some s' => leave u s'
  | none => .ub

/-- An exception leaves a destructor that may throw (unlock_guard.hpp 50-53). -/
def throwFromDtor (u : Bool) (s : St) : Res := if u then .terminate else .exc s

/-- `~unlock_guard` of a mutex, unlock_guard.hpp 50-53. -/
def unlockGuardDtor (m : Nat) (fails : Bool) (u : Bool) (s : St) : Res :=
  match lockM m fails s with
  | .got s' => leave u s'
  | .threw => throwFromDtor u s
  | .stuck => .stuck

/-- `~unique_lock`, unique_lock.hpp 167-171; the object is gone afterwards. -/
def uniqueDtor (u : Bool) (s : St) : Res :=
  match s.objs with
  | (m, true) :: rest =>
    match unlockM m { s with objs := rest } with
    | some s' => leave u s'
    | none => .ub
  | (_, false) :: rest => leave u { s with objs := rest }
  | [] => .ub

/-- `~unlock_guard` of a unique_lock: `unique_lock::lock()` (186-196) throws if it already owns. -/
def unlockLockDtor (i : Nat) (fails : Bool) (u : Bool) (s : St) : Res :=
  match s.objs[i]? with
  | some (_, true) => throwFromDtor u s
  | some (m, false) =>
    match lockM m fails s with
    | .got s' => leave u { s' with objs := s'.objs.set i (m, true) }
    | .threw => throwFromDtor u s
    | .stuck => .stuck
  | none => .misuse

/-- Execution of a block with the guards of lock_guard.hpp 47-59, shared_lock_guard.hpp 46-58, unlock_guard.hpp 45-53: the observations and how it is left. -/
def run : Prog → Ctx → St → List Ev × Res
  | .skip, _, s => ([], .ok s)
  | .probe, ctx, s => ([⟨ctx, s⟩], .ok s)
  | .throw_, _, s => ([], .exc s)
  | .seq p q, ctx, s =>
    match run p ctx s with
    | (es, .ok s') => (es ++ (run q ctx s').1, (run q ctx s').2)
    | r => r
  | .tryCatch p q, ctx, s =>
    match run p ctx s with
    | (es, .exc s') => (es ++ (run q ctx s').1, (run q ctx s').2)
    | r => r
  -- lock_guard.hpp 47-54: the constructor locks, or (adopt_lock) the user has; if this throws there is no guard
  | .lockGuard m _ fails body, ctx, s =>
    match lockM m fails s with
    | .threw => ([], .exc s)
    | .stuck => ([], .stuck)
    | .got s₁ =>
      let r := run body ((m, .locked) :: ctx) s₁
      (r.1, afterBody r.2 (lockGuardDtor m))
  -- shared_lock_guard.hpp 46-53
  | .sharedGuard m _ fails body, ctx, s =>
    match lockSharedM m fails s with
    | .threw => ([], .exc s)
    | .stuck => ([], .stuck)
    | .got s₁ =>
      let r := run body ((m, .shared) :: ctx) s₁
      (r.1, afterBody r.2 (sharedGuardDtor m))
  -- unlock_guard.hpp 45-48
  | .unlockGuard m fails body, ctx, s =>
    match unlockM m s with
    | none => ([], .misuse)
    | some s₁ =>
      let r := run body ((m, .unlocked) :: ctx) s₁
      (r.1, afterBody r.2 (unlockGuardDtor m fails))
  -- unique_lock.hpp 72-76
  | .uniqueLock m fails body, ctx, s =>
    match lockM m fails s with
    | .threw => ([], .exc s)
    | .stuck => ([], .stuck)
    | .got s₁ =>
      let r := run body ((m, .lockObj) :: ctx) { s₁ with objs := (m, true) :: s₁.objs }
      (r.1, afterBody r.2 uniqueDtor)
  -- unlock_guard.hpp 45-48 with unique_lock.hpp 253-263: the constructor does not let an exception out
  | .unlockLock i fails body, ctx, s =>
    match s.objs[i]? with
    | none => ([], .misuse)
    | some (_, false) => ([], .terminate)
    | some (m, true) =>
      match unlockM m s with
      | none => ([], .ub)
      | some s₁ =>
        let r := run body ((m, .unlocked) :: ctx) { s₁ with objs := s₁.objs.set i (m, false) }
        (r.1, afterBody r.2 (unlockLockDtor i fails))

end Verif.Guards
