import Verif.Base.LTS

/-!
# POSIX wrappers and interruption by signals

Models one call of

* `mutex::lock`, `mutex::try_lock`, `mutex::unlock` (detail/mutexes/mutex_posix.hpp 87-110),
* `timed_mutex::priv_timed_lock` with `pthread_mutex_timedlock` (detail/mutexes/timed_mutex_posix.hpp 210-222),
* `condition_variable::priv_wait`, `priv_timed_wait` (detail/condition_variables/condition_variable_posix.hpp 206-211,
  219-228),
* `semaphore::wait`, `try_wait`, `priv_timed_wait` (detail/semaphore/semaphore_posix.hpp 79-99, 101-118, 144-167),

together with the loops around the pthread functions in detail/pthread.hpp 64-152.  The environment answers each call of
the system.  Without `BOOST_SYNC_HAS_PTHREAD_EINTR_BUG` (pthread.hpp 47-60) the loops are not compiled and the system does
not return `EINTR` from pthread functions; `workaround` is this configuration.
-/

namespace Verif.Interrupted

/-- `int` results of the system (pthread.hpp 64-152; `errno` in semaphore_posix.hpp 87, 107, 152). -/
inductive Errno
  | zero | eintr | ebusy | etimedout | eagain | einval
  | other (n : Nat)
  deriving DecidableEq, Repr

/-- The functions of the library: mutex_posix.hpp 87-110, timed_mutex_posix.hpp 210-222, condition_variable_posix.hpp 206-211 and 219-228,
semaphore_posix.hpp 79-99, 101-118, 144-167. -/
inductive Fn
  | mutexLock | mutexTryLock | mutexUnlock | mutexTimedLock | condWait | condTimedWait
  | semWait | semTryWait | semTimedWait
  deriving DecidableEq, Repr

/-- Functions implemented by pthread functions (pthread.hpp 64-152); the others call `sem_*` (semaphore_posix.hpp 83, 103, 148). -/
def Fn.pthread : Fn → Bool
  | .semWait | .semTryWait | .semTimedWait => false
  | _ => true

/-- How a call of the library ends (mutex_posix.hpp 90-109, timed_mutex_posix.hpp 216-220, condition_variable_posix.hpp 209-227,
semaphore_posix.hpp 84-97, 104-117, 149-165). -/
inductive Outcome
  /-- normal return (of a `void` function or with a result that means success) -/
  | success
  /-- `false`, `cv_status::timeout` -/
  | failure
  /-- `lock_error`, `wait_error` with the error code -/
  | threw (e : Errno)
  /-- `BOOST_ASSERT(false)`, `BOOST_VERIFY` -/
  | assertion
  deriving DecidableEq, Repr

/-- Where a call is: inside the loops of pthread.hpp 64-152 or semaphore_posix.hpp 81-98, 146-166, or behind them. -/
inductive PC
  /-- in the call of the system -/
  | calling
  /-- a pthread wrapper has returned `e` -/
  | wrapped (e : Errno)
  | done (o : Outcome)
  deriving DecidableEq, Repr

/-- The code after a pthread wrapper has returned.  mutex_posix.hpp `lock` 90-93, `unlock` 98, `try_lock` 105-109;
timed_mutex_posix.hpp 216-220; condition_variable_posix.hpp 208-210, 222-226. -/
def afterPthread (f : Fn) (e : Errno) : Outcome :=
  match f with
  | .mutexLock => if e ≠ .zero then .threw e else .success
  | .mutexUnlock => if e = .zero then .success else .assertion
  | .mutexTryLock => if e = .zero then .success else if e ≠ .ebusy then .threw e else .failure
  | .mutexTimedLock => if e = .zero then .success else if e ≠ .etimedout then .threw e else .failure
  | .condWait => if e ≠ .zero then .threw e else .success
  | .condTimedWait => if e = .etimedout then .failure else if e ≠ .zero then .threw e else .success
  | _ => .assertion

/-- One round of the loops of semaphore_posix.hpp (`wait` 83-97, `try_wait` 103-117, `priv_timed_wait` 148-165); `none`: `continue`. -/
def semRound (f : Fn) (e : Errno) : Option Outcome :=
  match f, e with
  | .semWait, .zero => some .success
  | .semWait, .eintr => none
  | .semWait, _ => some .assertion
  | .semTryWait, .zero => some .success
  | .semTryWait, .eintr | .semTryWait, .eagain => some .failure
  | .semTryWait, _ => some .assertion
  | .semTimedWait, .zero => some .success
  | .semTimedWait, .etimedout => some .failure
  | .semTimedWait, .eintr => none
  | .semTimedWait, _ => some .assertion
  | _, _ => some .assertion

/-- `none` as input is the code itself, `some e` the answer of the system; the trace consists of the answers.  The loops are those of
pthread.hpp 64-152 (`do { … } while (ret == EINTR)`) and semaphore_posix.hpp 81-98, 146-166. -/
def step (workaround : Bool) (f : Fn) : StepFn PC (Option Errno) Errno := fun pc a =>
  match pc, a with
  | .calling, some e =>
    if f.pthread then
      if workaround then
        -- do { ret = ...; } while (ret == EINTR);
        if e = .eintr then some (.calling, [e]) else some (.wrapped e, [e])
      else if e = .eintr then none
      else some (.wrapped e, [e])
    else match semRound f e with
      | none => some (.calling, [e])
      | some o => some (.done o, [e])
  | .wrapped e, none => some (.done (afterPthread f e), [])
  | _, _ => none

end Verif.Interrupted
