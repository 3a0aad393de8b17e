import Verif.Model.Locks

/-!
# Destructors of lock objects when the mutex cannot be unlocked

Models ~unique_lock (locks/unique_lock.hpp 167-171), ~upgrade_lock (locks/upgrade_lock.hpp 149-153) and ~shared_lock (locks/shared_lock.hpp 122-126) for mutexes whose unlocking
functions may throw, and the assignments from other kinds of locks (unique_lock.hpp 179-184, upgrade_lock.hpp 161-166, shared_lock.hpp 134-146), which destroy a temporary.  The
destructors have no exception specification: since C++11 they are `noexcept` and the process is terminated; before, the exception leaves the destructor, unless another one is
being handled.  All other members are those of `Verif.Locks.step`.

Simplifications: as in `Verif.Locks`, except that unlocking functions called by destructors may throw; an unlocking function that throws leaves the mutex locked.
-/

namespace Verif.LocksThrow

open Verif.Locks (Lock Kind Ans Ev Op St Err)

/-- The rules for destructors without exception specification (unique_lock.hpp 167, upgrade_lock.hpp 149, shared_lock.hpp 122). -/
inductive Std
  | cpp03 | cpp11
  deriving DecidableEq, Repr

/-- A call of a member: `dtorThrows`: the unlocking function called in unique_lock.hpp 170 (upgrade_lock.hpp 152, shared_lock.hpp 125) throws; `unwinding`: the object is
destroyed because of an exception. -/
structure Call where
  op : Op
  ans : Ans
  dtorThrows : Bool
  unwinding : Bool
  deriving DecidableEq, Repr

/-- The process: the lock objects (members of unique_lock.hpp 60-61), or terminated. -/
inductive Proc
  | running (s : St)
  | terminated
  deriving DecidableEq, Repr

/-- What can be seen: events of `Verif.Locks` (unique_lock.hpp 67-298), an exception that leaves the destructor of an object owning `m` (167-171), the end of the process. -/
inductive DEv
  | call (e : Ev)
  | unlockThrew (k : Kind) (m : Nat)
  | terminated
  deriving DecidableEq, Repr

/-- `~unique_lock()`, unique_lock.hpp 167-171; upgrade_lock.hpp 149-153, shared_lock.hpp 122-126; `none`: the process is terminated. -/
def destroyedBy (std : Std) (throws unwinding : Bool) (l : Lock) : Option (List DEv) :=
  if l.owns then
    match l.mutex with
    | none => some [.call .ub]
    | some m =>
      if throws then
        match std with
        | .cpp11 => none
        | .cpp03 => if unwinding then none else some [.unlockThrew l.kind m]
      else some [.call (.released l.kind m)]
  else some []

/-- One call of a member: destructors (unique_lock.hpp 167-171), assignments that convert (unique_lock.hpp 179-184, upgrade_lock.hpp 161-166, shared_lock.hpp 134-146; the
temporary is destroyed at the end of its block, not because of an exception), other members (`Verif.Locks.step`, unique_lock.hpp 67-298). -/
def step (std : Std) : StepFn Proc Call DEv := fun p c =>
  match p with
  | .terminated => none
  | .running s =>
    match c.op with
    | .destroy i =>
      match s[i]? with
      | some (some l) =>
        match destroyedBy std c.dtorThrows c.unwinding l with
        | none => some (.terminated, [.terminated])
        | some es => some (.running (s.set i none), es)
      | _ => none
    | .convertAssign i j =>
      match s[i]?, s[j]? with
      | some (some old), some (some l) =>
        if Locks.convertible .plain l.kind old.kind then
          match Locks.convert .plain old.kind l c.ans with
          | none => none
          | some (none, l', es) => some (.running (s.set j (some l')), es.map .call)
          | some (some n, l', es) =>
            match destroyedBy std c.dtorThrows false old with
            | none => some (.terminated, es.map .call ++ [.terminated])
            | some es' => some (.running ((s.set j (some l')).set i (some n)), es.map .call ++ es')
        else none
      | _, _ => none
    | op =>
      match Locks.step s (op, c.ans) with
      | none => none
      | some (s', es) => some (.running s', es.map .call)

end Verif.LocksThrow
