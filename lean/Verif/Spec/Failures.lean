import Verif.Model.OsCall

/-!
# Specification: failures of the operating system are reported

The public headers say "Throws: if an error occurs" (events, semaphore.hpp) and "An exception in case if the operating system is unable to fulfill
the request" (mutexes, condition variables); include/boost/sync/exceptions has one class per kind of failure.  Here: what the answers
of the system mean, independently of the functions that make the calls.
-/

namespace Verif.Spec.Failures

open Verif.OsCall

/-- The class of a failed wait for `o`: lock_error.hpp 31 for mutexes, wait_error.hpp 31 for the others. -/
def waitCls : Obj → Cls
  | .mutex => .lockError
  | _ => .waitError

/-- The answers that the documentation of the systems allows.  POSIX: the pthread functions never fail with `EINTR` (unless the platform has the
bug that pthread.hpp 47-60 works around), the errors of the semaphore functions are those listed; 4 `EINTR`, 11 `EAGAIN`,
22 `EINVAL`, 35 `EDEADLK`, 75 `EOVERFLOW`, 110 `ETIMEDOUT`.  Windows: the results of the wait functions, 0x102 `WAIT_TIMEOUT`, 0xFFFFFFFF `WAIT_FAILED`
(events are not abandoned). -/
def Documented (eintrBug : Bool) (c : Call) : Prop :=
  match c.api with
  | .pthread_mutex_init | .pthread_mutex_destroy | .pthread_mutex_lock | .pthread_mutex_trylock | .pthread_mutex_timedlock
  | .pthread_mutex_unlock | .pthread_cond_init | .pthread_cond_destroy | .pthread_cond_wait _ | .pthread_cond_timedwait _
  | .pthread_cond_signal | .pthread_cond_broadcast => eintrBug = true ∨ c.ans.res ≠ 4
  | .sem_post => c.ans.res = 0 ∨ c.ans.err = 22 ∨ c.ans.err = 75
  | .sem_wait => c.ans.res = 0 ∨ c.ans.err = 4 ∨ c.ans.err = 22 ∨ c.ans.err = 35
  | .sem_trywait => c.ans.res = 0 ∨ c.ans.err = 4 ∨ c.ans.err = 11 ∨ c.ans.err = 22 ∨ c.ans.err = 35
  | .sem_timedwait => c.ans.res = 0 ∨ c.ans.err = 4 ∨ c.ans.err = 22 ∨ c.ans.err = 35 ∨ c.ans.err = 110
  | .waitInfinite _ => c.ans.res = 0 ∨ c.ans.res = 0xFFFFFFFF
  | .waitFor _ _ => c.ans.res = 0 ∨ c.ans.res = 0x102 ∨ c.ans.res = 0xFFFFFFFF
  | .WaitForMultipleObjects _ => c.ans.res = 0 ∨ c.ans.res = 1 ∨ c.ans.res = 0xFFFFFFFF
  | _ => True

/-- The exception that a failed call has to lead to.  Timeouts, busy mutexes, empty semaphores and interruptions are no failures; misuse (`misused`) is
not either.  4, 14, 37, 49: `KERN_INVALID_ARGUMENT`, `KERN_ABORTED`, `KERN_TERMINATED`, `KERN_OPERATION_TIMED_OUT`; 298:
`ERROR_TOO_MANY_POSTS`; 16: `EBUSY`. -/
def mustThrow (c : Call) : Option Exc :=
  let r := c.ans.res
  let e := c.ans.err
  match c.api with
  -- the object cannot be created: resource_error
  | .pthread_mutex_init | .pthread_cond_init => if r = 0 then none else some ⟨.resourceError, .os r⟩
  | .sem_init => if r = 0 then none else some ⟨.resourceError, .os e⟩
  | .CreateEvent | .CreateSemaphore | .DuplicateHandle | .RegisterWait | .CreateTimer | .TlsSetValue =>
    if r = 0 then some ⟨.resourceError, .os e⟩ else none
  | .TlsAlloc => if r = 0xFFFFFFFF then some ⟨.resourceError, .os e⟩ else none
  | .semaphore_create => if r = 0 then none else some ⟨.resourceError, .not_enough_memory⟩
  | .dispatch_semaphore_create => if r = 0 then some ⟨.resourceError, .not_enough_memory⟩ else none
  | .new => if r = 0 then some ⟨.badAlloc, .none⟩ else none
  | .boost_version => if r = 0 then none else some ⟨.logicError, .none⟩
  -- a mutex cannot be locked: lock_error
  | .pthread_mutex_lock => if r = 0 ∨ r = 4 then none else some ⟨.lockError, .os r⟩
  | .pthread_mutex_trylock => if r = 0 ∨ r = 4 ∨ r = 16 then none else some ⟨.lockError, .os r⟩
  | .pthread_mutex_timedlock => if r = 0 ∨ r = 4 ∨ r = 110 then none else some ⟨.lockError, .os r⟩
  -- it is impossible to wait
  | .pthread_cond_wait o => if r = 0 ∨ r = 4 then none else some ⟨waitCls o, .os r⟩
  | .pthread_cond_timedwait o => if r = 0 ∨ r = 4 ∨ r = 110 then none else some ⟨waitCls o, .os r⟩
  | .waitInfinite o => if r = 0 then none else some ⟨waitCls o, .os e⟩
  | .waitFor o _ => if r = 0 ∨ r = 0x102 then none else some ⟨waitCls o, .os e⟩
  | .WaitForMultipleObjects o => if r = 0xFFFFFFFF then some ⟨waitCls o, .os e⟩ else none
  | .SetWaitableTimer o => if r = 0 then some ⟨waitCls o, .os e⟩ else none
  | .sem_wait => if r = 0 ∨ e = 4 ∨ e = 22 then none else some ⟨.waitError, .os e⟩
  | .sem_trywait => if r = 0 ∨ e = 4 ∨ e = 11 ∨ e = 22 then none else some ⟨.waitError, .os e⟩
  | .sem_timedwait => if r = 0 ∨ e = 4 ∨ e = 22 ∨ e = 110 then none else some ⟨.waitError, .os e⟩
  | .semaphore_wait =>
    if r = 0 ∨ r = 14 then none else some ⟨.waitError, if r = 4 ∨ r = 37 then .invalid_argument else .operation_canceled⟩
  | .semaphore_timedwait =>
    if r = 0 ∨ r = 14 ∨ r = 49 then none else some ⟨.waitError, if r = 4 ∨ r = 37 then .invalid_argument else .operation_canceled⟩
  -- signalling: overflow_error if the counter is at its limit, otherwise runtime_exception
  | .sem_post => if r = 0 ∨ e = 22 then none else some ⟨if e = 75 then .overflowError else .runtimeException, .os e⟩
  | .ReleaseSemaphore .semaphore => if r = 0 then some ⟨if e = 298 then .overflowError else .runtimeException, .os e⟩ else none
  | .SetEvent .event | .ResetEvent => if r = 0 then some ⟨.runtimeException, .os e⟩ else none
  -- the user's own exceptions pass
  | .userLock | .userUnlock => if r = 0 then none else some ⟨.user, .os r⟩
  | _ => none

/-- Failed calls that a function which must not throw makes, and calls that fail only if the object is used wrongly (it does not exist, is in use, is
not locked): debug builds stop with an assertion. -/
def misused (c : Call) : Bool :=
  let r := c.ans.res
  let e := c.ans.err
  match c.api with
  | .pthread_mutex_destroy | .pthread_cond_destroy | .pthread_mutex_unlock => r ≠ 0 ∧ r ≠ 4
  | .pthread_cond_signal | .pthread_cond_broadcast | .sem_destroy => r ≠ 0
  | .sem_post | .sem_wait | .sem_trywait | .sem_timedwait => r ≠ 0 ∧ e = 22
  | .CloseHandle (some _) => r = 0
  | .SetEvent .mutex | .ReleaseSemaphore .cv => r = 0
  | .semaphore_destroy | .semaphore_signal | .semaphore_signal_all => r ≠ 0
  | _ => false

/-- The contract: a function that returns has had no failure; an exception reports a failure, with the right class and the code of the system; an
assertion is due to misuse, and with `debug` every misuse leads to one; the process is terminated only after a call `X`. -/
def Reported {α : Type} (X : Call → Prop) (debug : Bool) (log : List Call) : Out α → Prop
  | .pending => True
  | .ret _ => ∀ c ∈ log, mustThrow c = none ∧ (debug = true → misused c = false)
  | .threw x => ∃ c ∈ log, mustThrow c = some x
  | .assertion => debug = true ∧ ∃ c ∈ log, misused c = true
  | .terminated => ∃ c ∈ log, X c

/-- For the `X` of `Reported`: the process is not terminated. -/
def never : Call → Prop := fun _ => False

/-- The contract of functions that must not throw: `unlock`, `notify_one`, `notify_all`, destructors. -/
def Safe {α : Type} (X : Call → Prop) (debug : Bool) (log : List Call) (o : Out α) : Prop :=
  Reported X debug log o ∧ ∀ x, o ≠ .threw x

/-- What is left of the contract where failures are treated like misuse: a debug build stops with an assertion. -/
def Noticed {α : Type} (debug : Bool) (log : List Call) : Out α → Prop
  | .pending => True
  | .ret _ => debug = true → ∀ c ∈ log, mustThrow c = none ∧ misused c = false
  | .threw x => ∃ c ∈ log, mustThrow c = some x
  | .assertion => debug = true ∧ ∃ c ∈ log, mustThrow c ≠ none ∨ misused c = true
  | .terminated => False

/-- A function fulfils the contract `R` in all executions in which the system answers as documented (and as `extra` says). -/
def Fulfils {α : Type} (eintrBug : Bool) (extra : Call → Prop) (R : List Call → Out α → Prop) (m : M α) : Prop :=
  ∀ e as, (∀ c ∈ (m e as).log, Documented eintrBug c ∧ extra c) → R (m e as).log (m e as).out

/-- No assumption. -/
def always : Call → Prop := fun _ => True

/-! Assumptions and exceptions named in the theorems about parts of the contract. -/

/-- `EDEADLK` does not happen. -/
def noDeadlock (c : Call) : Prop := c.ans.err ≠ 35

/-- `ReleaseSemaphore` of a semaphore fails only because the count is at its limit. -/
def onlyOverflow (c : Call) : Prop := c.api = .ReleaseSemaphore .semaphore → c.ans.res ≠ 0 ∨ c.ans.err = 298

/-- `WaitForMultipleObjects` for a semaphore does not fail. -/
def semWaitOk (c : Call) : Prop := c.api = .WaitForMultipleObjects .semaphore → c.ans.res ≠ 0xFFFFFFFF

/-- `semaphore_timedwait` is not interrupted. -/
def notAborted (c : Call) : Prop := c.api = .semaphore_timedwait → c.ans.res ≠ 14

/-- `SetEvent` for the event of a mutex, and `ReleaseSemaphore` for the semaphores of a condition variable succeed. -/
def wakesUp (c : Call) : Prop := (c.api = .SetEvent .mutex ∨ c.api = .ReleaseSemaphore .cv) → c.ans.res ≠ 0

/-- A failed `CreateEvent`. -/
def eventFails (c : Call) : Prop := c.api = .CreateEvent ∧ c.ans.res = 0

/-- A failed call in `lock` of the internal mutex. -/
def lockFails (c : Call) : Prop := eventFails c ∨ (c.api = .waitInfinite .mutex ∧ c.ans.res ≠ 0)

/-- `lock` of the user's object throws. -/
def relockFails (c : Call) : Prop := c.api = .userLock ∧ c.ans.res ≠ 0

/-- `lock` or `unlock` of the user's object throws. -/
def userFails (c : Call) : Prop := (c.api = .userLock ∨ c.api = .userUnlock) ∧ c.ans.res ≠ 0

/-- `sem_post` fails because the value of the semaphore is at its limit. -/
def postOverflows (c : Call) : Prop := c.api = .sem_post ∧ c.ans.res ≠ 0 ∧ c.ans.err = 75

end Verif.Spec.Failures
