import Verif.Model.OsCall

/-!
# The functions that call the operating system

Each definition is one function of include/boost/sync/detail, written in the language of `Verif.Model.OsCall`.

Simplifications.
* What the code reads from memory that other threads change (`m_active_count`, `m_event`, the waiter states, `m_is_locked`, …)
  is an answer of the environment (`Api.mem`), without any relation to what it wrote: the theorems hold whatever other
  threads do, but do not speak about the values.  The repetitions of failed atomic exchanges are left out.
* Times are numbers of milliseconds; conversions of durations are in `Verif.Model.Time`.
* The overloads for clocks of the user (`chrono_time_point`) call the relative function repeatedly; the clock is asked in
  `clockLoop`.
* Handles are not represented, only whether they are null.
-/

namespace Verif.Failures

open Verif.OsCall

/-- Configuration: `NDEBUG` is not defined; `BOOST_SYNC_HAS_PTHREAD_EINTR_BUG` (pthread.hpp 47-60);
`BOOST_SYNC_DETAIL_PTHREAD_HAS_TIMEDLOCK` (pthread.hpp 31-37). -/
structure Cfg where
  debug : Bool
  eintrBug : Bool
  timedlock : Bool
  deriving DecidableEq, Repr

/-- `EINTR` (pthread.hpp 71, semaphore_posix.hpp 89). -/
def EINTR : UInt32 := 4
/-- `EBUSY` (mutex_posix.hpp 107). -/
def EBUSY : UInt32 := 16
/-- `EAGAIN` (semaphore_posix.hpp 110). -/
def EAGAIN : UInt32 := 11
/-- `EINVAL` (semaphore_posix.hpp 71). -/
def EINVAL : UInt32 := 22
/-- `ETIMEDOUT` (timed_mutex_posix.hpp 218, semaphore_posix.hpp 154). -/
def ETIMEDOUT : UInt32 := 110
/-- `EOVERFLOW` (semaphore_posix.hpp 67). -/
def EOVERFLOW : UInt32 := 75
/-- `wait_timeout` (basic_event_windows.hpp 99). -/
def waitTimeout : UInt32 := 0x102
/-- `wait_failed` (semaphore_windows.hpp 87). -/
def waitFailed : UInt32 := 0xFFFFFFFF
/-- `max_non_infinite_wait` (basic_event_windows.hpp 116). -/
def maxNonInfiniteWait : UInt32 := 0xFFFFFFFE
/-- `tls_out_of_indexes` (waitable_timer.hpp 177). -/
def tlsOutOfIndexes : UInt32 := 0xFFFFFFFF
/-- `ERROR_ALREADY_EXISTS` (waitable_timer.hpp 197). -/
def ERROR_ALREADY_EXISTS : UInt32 := 183
/-- `KERN_INVALID_ARGUMENT` (basic_semaphore_mach.hpp 78). -/
def KERN_INVALID_ARGUMENT : UInt32 := 4
/-- `KERN_ABORTED` (basic_semaphore_mach.hpp 84). -/
def KERN_ABORTED : UInt32 := 14
/-- `KERN_TERMINATED` (basic_semaphore_mach.hpp 81). -/
def KERN_TERMINATED : UInt32 := 37
/-- `KERN_OPERATION_TIMED_OUT` (basic_semaphore_mach.hpp 158). -/
def KERN_OPERATION_TIMED_OUT : UInt32 := 49

/-! ## POSIX: pthread.hpp, mutex_posix.hpp, timed_mutex_posix.hpp, condition_variable_posix.hpp -/

/-- pthread.hpp 49-58 without, 64-152 with `BOOST_SYNC_HAS_PTHREAD_EINTR_BUG`: `do { ret = f(…); } while (ret == EINTR);`. -/
def pthread (c : Cfg) (f : Api) : M UInt32 :=
  if c.eintrBug then loop (fun _ => f) (fun _ r => pure (if r.res = EINTR then .inl () else .inr r.res)) ()
  else do
    let r ← sys f
    pure r.res

/-- mutex_posix.hpp 72-79 (without `PTHREAD_MUTEX_INITIALIZER`). -/
def mutexCtor : M Unit := do
  let r ← sys .pthread_mutex_init
  if r.res ≠ 0 then throwExc .resourceError (.os r.res)

/-- mutex_posix.hpp 82-85. -/
def mutexDtor (c : Cfg) : M Unit := noexcept do
  let r ← pthread c .pthread_mutex_destroy
  verify c.debug (r == 0)

/-- mutex_posix.hpp 87-94. -/
def mutexLock (c : Cfg) : M Unit := do
  let r ← pthread c .pthread_mutex_lock
  if r ≠ 0 then throwExc .lockError (.os r)

/-- mutex_posix.hpp 96-99. -/
def mutexUnlock (c : Cfg) : M Unit := noexcept do
  let r ← pthread c .pthread_mutex_unlock
  verify c.debug (r == 0)

/-- mutex_posix.hpp 101-110. -/
def mutexTryLock (c : Cfg) : M Bool := do
  let r ← pthread c .pthread_mutex_trylock
  if r = 0 then pure true
  else if r ≠ EBUSY then throwExc .lockError (.os r)
  else pure false

/-- timed_mutex_posix.hpp 98-110 (without `PTHREAD_MUTEX_INITIALIZER`). -/
def timedMutexCtor (c : Cfg) : M Unit := do
  let r ← sys .pthread_mutex_init
  if r.res ≠ 0 then throwExc .resourceError (.os r.res)
  if !c.timedlock then
    let r ← sys .pthread_cond_init
    if r.res ≠ 0 then throwExc .resourceError (.os r.res)

/-- timed_mutex_posix.hpp 113-119. -/
def timedMutexDtor (c : Cfg) : M Unit := noexcept do
  let r ← pthread c .pthread_mutex_destroy
  verify c.debug (r == 0)
  if !c.timedlock then
    let r ← pthread c .pthread_cond_destroy
    verify c.debug (r == 0)

/-- `pthread_mutex_lock_guard` (pthread_mutex_locks.hpp 41-49) around a block. -/
def pthreadGuard {α : Type} (c : Cfg) (m : M α) : M α := do
  noexcept do
    let r ← pthread c .pthread_mutex_lock
    verify c.debug (r == 0)
  guarded m (noexcept do
    let r ← pthread c .pthread_mutex_unlock
    verify c.debug (r == 0))

/-- timed_mutex_posix.hpp 123-128, 148-156.  Each round of `while (m_is_locked)` reads `m_is_locked` (`mem`). -/
def timedMutexLock (c : Cfg) : M Unit :=
  if c.timedlock then do
    let r ← pthread c .pthread_mutex_lock
    if r ≠ 0 then throwExc .lockError (.os r)
  else pthreadGuard c (loop (fun _ => .mem) (fun _ locked => do
    if locked.res ≠ 0 then
      let r ← pthread c (.pthread_cond_wait .mutex)
      verify c.debug (r == 0)
      pure (.inl ())
    else pure (.inr ())) ())

/-- timed_mutex_posix.hpp 130-133, 158-163. -/
def timedMutexUnlock (c : Cfg) : M Unit :=
  if c.timedlock then noexcept do
    let r ← pthread c .pthread_mutex_unlock
    verify c.debug (r == 0)
  else noexcept (pthreadGuard c do
    let r ← sys .pthread_cond_signal
    verify c.debug (r.res == 0))

/-- timed_mutex_posix.hpp 135-144, 165-172. -/
def timedMutexTryLock (c : Cfg) : M Bool :=
  if c.timedlock then do
    let r ← pthread c .pthread_mutex_trylock
    if r = 0 then pure true
    else if r ≠ EBUSY then throwExc .lockError (.os r)
    else pure false
  else pthreadGuard c do
    let locked ← sys .mem
    pure (locked.res == 0)

/-- timed_mutex_posix.hpp 210-244. -/
def timedMutexTimedLock (c : Cfg) : M Bool :=
  if c.timedlock then do
    let r ← pthread c .pthread_mutex_timedlock
    if r = 0 then pure true
    else if r ≠ ETIMEDOUT then throwExc .lockError (.os r)
    else pure false
  else pthreadGuard c (loop (fun _ => .mem) (fun _ locked => do
    if locked.res ≠ 0 then
      let r ← pthread c (.pthread_cond_timedwait .mutex)
      if r = ETIMEDOUT then
        let locked ← sys .mem
        pure (.inr (locked.res == 0))
      else if r ≠ 0 then throwExc .lockError (.os r)
      else pure (.inl ())
    else pure (.inr true)) ())

/-- condition_variable_posix.hpp 76-81 (without `PTHREAD_COND_INITIALIZER`). -/
def condCtor : M Unit := do
  let r ← sys .pthread_cond_init
  if r.res ≠ 0 then throwExc .resourceError (.os r.res)

/-- condition_variable_posix.hpp 84-87. -/
def condDtor (c : Cfg) : M Unit := noexcept do
  let r ← pthread c .pthread_cond_destroy
  verify c.debug (r == 0)

/-- condition_variable_posix.hpp 89-92. -/
def condNotifyOne (c : Cfg) : M Unit := noexcept do
  let r ← sys .pthread_cond_signal
  verify c.debug (r.res == 0)

/-- condition_variable_posix.hpp 94-97. -/
def condNotifyAll (c : Cfg) : M Unit := noexcept do
  let r ← sys .pthread_cond_broadcast
  verify c.debug (r.res == 0)

/-- condition_variable_posix.hpp 206-211. -/
def condWait (c : Cfg) : M Unit := do
  let r ← pthread c (.pthread_cond_wait .cv)
  if r ≠ 0 then throwExc .waitError (.os r)

/-- condition_variable_posix.hpp 219-228; `true`: `no_timeout`. -/
def condTimedWait (c : Cfg) : M Bool := do
  let r ← pthread c (.pthread_cond_timedwait .cv)
  if r = ETIMEDOUT then pure false
  else if r ≠ 0 then throwExc .waitError (.os r)
  else pure true

/-! ## semaphore_posix.hpp -/

/-- semaphore_posix.hpp 43-51. -/
def semCtor : M Unit := do
  let r ← sys .sem_init
  if r.res ≠ 0 then
    let err ← getLastError
    throwExc .resourceError (.os err)

/-- semaphore_posix.hpp 53-56. -/
def semDtor (c : Cfg) : M Unit := noexcept do
  let r ← sys .sem_destroy
  verify c.debug (r.res == 0)

/-- semaphore_posix.hpp 58-77. -/
def semPost (c : Cfg) : M Unit := do
  let r ← sys .sem_post
  if r.res = 0 then pure ()
  else
    let err ← getLastError
    if err = EOVERFLOW then throwExc .overflowError (.os err)
    else if err = EINVAL then verify c.debug false
    else pure ()

/-- semaphore_posix.hpp 79-99. -/
def semWait (c : Cfg) : M Unit :=
  loop (fun _ => .sem_wait) (fun _ r => do
    if r.res = 0 then pure (.inr ())
    else
      let err ← getLastError
      if err = EINTR then pure (.inl ())
      else
        verify c.debug false
        pure (.inr ())) ()

/-- semaphore_posix.hpp 101-118. -/
def semTryWait (c : Cfg) : M Bool := do
  let r ← sys .sem_trywait
  if r.res = 0 then pure true
  else
    let err ← getLastError
    if err = EINTR ∨ err = EAGAIN then pure false
    else
      verify c.debug false
      pure false

/-- semaphore_posix.hpp 144-167. -/
def semTimedWait (c : Cfg) : M Bool :=
  loop (fun _ => .sem_timedwait) (fun _ r => do
    if r.res = 0 then pure (.inr true)
    else
      let err ← getLastError
      if err = ETIMEDOUT then pure (.inr false)
      else if err = EINTR then pure (.inl ())
      else
        verify c.debug false
        pure (.inr false)) ()

/-! ## Windows: waitable_timer.hpp -/

/-- waitable_timer.hpp 107-110, 97-105: `delete ctx`; the flags are those of the members that are not null. -/
def deleteCtx (wait thread timer : Bool) : M Unit := noexcept do
  if wait then let _ ← sys .UnregisterWait
  if thread then let _ ← sys (.CloseHandle none)
  if timer then let _ ← sys (.CloseHandle none)

/-- waitable_timer.hpp 282-285: after a failed call. -/
def ctxFailed (wait thread timer : Bool) : M Unit := do
  let err ← getLastError
  deleteCtx wait thread timer
  throwExc .resourceError (.os err)

/-- waitable_timer.hpp 245-286. -/
def createCtx : M Unit := do
  let p ← sys .new
  if p.res = 0 then throwExc .badAlloc .none
  let r ← sys .DuplicateHandle
  if r.res ≠ 0 then
    let r ← sys .RegisterWait
    if r.res ≠ 0 then
      let h ← sys .CreateTimer
      if h.res ≠ 0 then
        let r ← sys .TlsSetValue
        if r.res ≠ 0 then pure ()
        else ctxFailed true true true
      else ctxFailed true true false
    else ctxFailed false true false
  else ctxFailed false false false

/-- waitable_timer.hpp 231-241: the TLS slot of this module. -/
def ownSlot : M Unit := do
  let key ← sys .TlsAlloc
  if key.res = tlsOutOfIndexes then
    let err ← getLastError
    let _ ← sys .mem
    throwExc .resourceError (.os err)
  let _ ← sys .mem
  pure ()

/-- waitable_timer.hpp 211-241: after the semaphore has been opened. -/
def queryKey : M Unit := do
  let _ ← sys .atexit
  let f ← sys .get_proc_address
  if f.res ≠ 0 then
    let r ← sys .NtQuerySemaphore
    if r.res = 0 then let _ ← sys .mem
    else ownSlot
  else ownSlot

/-- waitable_timer.hpp 142-241. -/
def timerInit : M Unit := do
  let h ← sys .OpenSemaphore
  if h.res = 0 then
    let key ← sys .TlsAlloc
    if key.res = tlsOutOfIndexes then
      let err ← getLastError
      let _ ← sys .mem
      throwExc .resourceError (.os err)
    let h ← sys .CreateNamedSemaphore
    let err ← getLastError
    if h.res = 0 then let _ ← sys .mem
    else if err = ERROR_ALREADY_EXISTS then
      let _ ← sys .TlsFree
      queryKey
    else
      let _ ← sys .atexit
      let _ ← sys .mem
  else queryKey

/-- waitable_timer.hpp 123-140 (the loop around the exchange of `initialized`: 0 uninitialized, 1 in progress, otherwise initialized), then
142-241. -/
def timerOnce : M Unit := do
  let mine ← loop (fun _ => .mem) (fun _ old =>
    pure (if old.res = 1 then .inl () else .inr (old.res == 0))) ()
  if mine then timerInit

/-- `get_waitable_timer`, waitable_timer.hpp 301-318. -/
def getWaitableTimer : M Unit := do
  let initialized ← sys .mem
  if initialized.res = 0 then timerOnce
  let p ← sys .TlsGetValue
  if p.res = 0 then createCtx
  let v ← sys .boost_version
  if v.res ≠ 0 then throwExc .logicError .none

/-! ## Windows: basic_event_windows.hpp, semaphore_windows.hpp -/

/-- The chunk of basic_event_windows.hpp 116-117, semaphore_windows.hpp 123-124, timed_mutex_windows.hpp 176-177,
basic_condition_variable_windows.hpp 362-363. -/
def chunk (timeLeft : Int) : UInt32 :=
  if timeLeft > (maxNonInfiniteWait.toNat : Int) then maxNonInfiniteWait else UInt32.ofNat timeLeft.toNat

/-- basic_event_windows.hpp 48-56. -/
def eventCtor : M Unit := do
  let h ← sys .CreateEvent
  if h.res = 0 then
    let err ← getLastError
    throwExc .resourceError (.os err)

/-- basic_event_windows.hpp 58-61. -/
def eventDtor (c : Cfg) : M Unit := noexcept do
  let r ← sys (.CloseHandle (some .event))
  verify c.debug (r.res != 0)

/-- basic_event_windows.hpp 63-71. -/
def eventSet : M Unit := do
  let status ← sys (.SetEvent .event)
  if status.res = 0 then
    let err ← getLastError
    throwExc .runtimeException (.os err)

/-- basic_event_windows.hpp 73-81. -/
def eventReset : M Unit := do
  let status ← sys .ResetEvent
  if status.res = 0 then
    let err ← getLastError
    throwExc .runtimeException (.os err)

/-- basic_event_windows.hpp 83-91. -/
def eventWait : M Unit := do
  let res ← sys (.waitInfinite .event)
  if res.res ≠ 0 then
    let err ← getLastError
    throwExc .waitError (.os err)

/-- basic_event_windows.hpp 93-106. -/
def eventTryWait : M Bool := do
  let res ← sys (.waitFor .event 0)
  if res.res = 0 then pure true
  else
    if res.res ≠ waitTimeout then
      let err ← getLastError
      throwExc .waitError (.os err)
    pure false

/-- basic_event_windows.hpp 108-138. -/
def eventTimedRel (t : Int) : M Bool :=
  loop (fun left => .waitFor .event (chunk left)) (fun left res => do
    if res.res = 0 then pure (.inr true)
    else if res.res = waitTimeout then
      let left := left - ((chunk left).toNat : Int)
      pure (if left > 0 then .inl left else .inr false)
    else
      let err ← getLastError
      throwExc .waitError (.os err)) (if t < 0 then 0 else t)

/-- basic_event_windows.hpp 140-169. -/
def eventTimedAbs (c : Cfg) : M Bool := do
  getWaitableTimer
  let r ← sys (.SetWaitableTimer .event)
  if r.res = 0 then
    let err ← getLastError
    throwExc .waitError (.os err)
  let res ← sys (.WaitForMultipleObjects .event)
  if res.res = waitFailed then
    let err ← getLastError
    throwExc .waitError (.os err)
  if res.res = 0 then pure true
  else
    if res.res ≠ 1 then verify c.debug false
    pure false

/-- semaphore_windows.hpp 49-57. -/
def wsemCtor : M Unit := do
  let h ← sys .CreateSemaphore
  if h.res = 0 then
    let err ← getLastError
    throwExc .resourceError (.os err)

/-- semaphore_windows.hpp 59-62. -/
def wsemDtor (c : Cfg) : M Unit := noexcept do
  let r ← sys (.CloseHandle (some .semaphore))
  verify c.debug (r.res != 0)

/-- semaphore_windows.hpp 64-72. -/
def wsemPost : M Unit := do
  let status ← sys (.ReleaseSemaphore .semaphore)
  if status.res = 0 then
    let err ← getLastError
    throwExc .overflowError (.os err)

/-- semaphore_windows.hpp 74-81. -/
def wsemWait : M Unit := do
  let res ← sys (.waitInfinite .semaphore)
  if res.res ≠ 0 then
    let err ← getLastError
    throwExc .waitError (.os err)

/-- semaphore_windows.hpp 84-94. -/
def wsemTryWait : M Bool := do
  let res ← sys (.waitFor .semaphore 0)
  if res.res = waitFailed then
    let err ← getLastError
    throwExc .waitError (.os err)
  pure (res.res == 0)

/-- semaphore_windows.hpp 115-145. -/
def wsemTimedRel (t : Int) : M Bool :=
  loop (fun left => .waitFor .semaphore (chunk left)) (fun left res => do
    if res.res = 0 then pure (.inr true)
    else if res.res = waitTimeout then
      let left := left - ((chunk left).toNat : Int)
      pure (if left > 0 then .inl left else .inr false)
    else
      let err ← getLastError
      throwExc .waitError (.os err)) (if t < 0 then 0 else t)

/-- semaphore_windows.hpp 147-177. -/
def wsemTimedAbs (c : Cfg) : M Bool := do
  getWaitableTimer
  let r ← sys (.SetWaitableTimer .semaphore)
  if r.res = 0 then
    let err ← getLastError
    throwExc .waitError (.os err)
  let res ← sys (.WaitForMultipleObjects .semaphore)
  if res.res = 0 then pure true
  else if res.res = waitFailed then
    let err ← getLastError
    throwExc .lockError (.os err)
  else
    if res.res ≠ 1 then verify c.debug false
    pure false

/-! ## Windows: basic_mutex_windows.hpp, timed_mutex_windows.hpp -/

/-- basic_mutex_windows.hpp 53, 55. -/
def lockFlag : UInt32 := 0x80000000
/-- basic_mutex_windows.hpp 54, 56. -/
def eventSetFlag : UInt32 := 0x40000000

/-- basic_mutex_windows.hpp 100-126. -/
def getEvent : M Unit := do
  let event ← sys .mem
  if event.res = 0 then
    let newEvent ← sys .CreateEvent
    if newEvent.res ≠ 0 then
      let old ← sys .mem
      if old.res ≠ 0 then let _ ← sys (.CloseHandle none)
    else
      let err ← getLastError
      throwExc .resourceError (.os err)

/-- basic_mutex_windows.hpp 69-74. -/
def wmutexDtor (c : Cfg) : M Unit := noexcept do
  let event ← sys .mem
  if event.res ≠ 0 then
    let r ← sys (.CloseHandle (some .mutex))
    verify c.debug (r.res != 0)

/-- basic_mutex_windows.hpp 95-98. -/
def wmutexTryLock : M Bool := do
  let old ← sys .mem
  pure (old.res &&& lockFlag == 0)

/-- basic_mutex_windows.hpp 128-141 (`mark_waiting_and_try_lock`), 143-153 (`clear_waiting_and_try_lock`): whether the word they replace has
the lock flag. -/
def stillLocked : M Bool := do
  let old ← sys .mem
  pure (old.res &&& lockFlag != 0)

/-- basic_mutex_windows.hpp 159-184. -/
def wmutexPrivLock : M Unit := do
  let _ ← sys .mem
  let waiting ← stillLocked
  if waiting then
    rethrowing (do
      getEvent
      loop (fun _ => .waitInfinite .mutex) (fun _ retval => do
        if retval.res ≠ 0 then
          let err ← getLastError
          throwExc .lockError (.os err)
        let locked ← stillLocked
        pure (if locked then .inl () else .inr ())) ())
      (do let _ ← sys .mem)

/-- basic_mutex_windows.hpp 76-80. -/
def wmutexLock : M Unit := do
  let ok ← wmutexTryLock
  if !ok then wmutexPrivLock

/-- basic_mutex_windows.hpp 82-93. -/
def wmutexUnlock : M Unit := noexcept do
  let old ← sys .mem
  if old.res &&& eventSetFlag = 0 ∧ old.res > lockFlag then
    let old ← sys .mem
    if old.res &&& eventSetFlag = 0 then
      getEvent
      let _ ← sys (.SetEvent .mutex)

/-- timed_mutex_windows.hpp 130-154: the loop; other results of `WaitForMultipleObjects` (line 152, `BOOST_UNREACHABLE_RETURN`) count as an
assertion. -/
def wmutexWaitAbs : M Bool :=
  loop (fun _ => .WaitForMultipleObjects .mutex) (fun _ res => do
    if res.res = waitFailed then
      let err ← getLastError
      throwExc .lockError (.os err)
    if res.res = 0 then
      let locked ← stillLocked
      pure (if locked then .inl () else .inr true)
    else if res.res = 1 then
      let _ ← sys .mem
      pure (.inr false)
    else
      verify true false
      pure (.inr false)) ()

/-- timed_mutex_windows.hpp 118-155: the `try` block. -/
def wmutexTryAbs : M Bool := do
  getEvent
  getWaitableTimer
  let r ← sys (.SetWaitableTimer .mutex)
  if r.res = 0 then
    let err ← getLastError
    throwExc .lockError (.os err)
  wmutexWaitAbs

/-- timed_mutex_windows.hpp 111-161. -/
def wmutexPrivTimedAbs : M Bool := do
  let _ ← sys .mem
  let waiting ← stillLocked
  if !waiting then pure true
  else rethrowing wmutexTryAbs (do let _ ← sys .mem)

/-- timed_mutex_windows.hpp 174-197: the loop. -/
def wmutexWaitRel (t : Int) : M Bool :=
  if t > 0 then
    loop (fun left => .waitFor .mutex (chunk left)) (fun left res => do
      if res.res = 0 then
        let locked ← stillLocked
        pure (if locked then .inl left else .inr true)
      else if res.res = waitTimeout then
        let left := left - ((chunk left).toNat : Int)
        pure (if left > 0 then .inl left else .inr false)
      else
        let err ← getLastError
        throwExc .lockError (.os err)) t
  else pure false

/-- timed_mutex_windows.hpp 170-202: the `try` block. -/
def wmutexTryRel (t : Int) : M Bool := do
  getEvent
  let got ← wmutexWaitRel t
  if got then pure true
  else
    let _ ← sys .mem
    pure false

/-- timed_mutex_windows.hpp 163-208. -/
def wmutexPrivTimedRel (t : Int) : M Bool := do
  let _ ← sys .mem
  let waiting ← stillLocked
  if !waiting then pure true
  else rethrowing (wmutexTryRel t) (do let _ ← sys .mem)

/-- timed_mutex_windows.hpp 80-105 around one of the functions `priv_timed_lock`. -/
def wmutexTimedLock (m : M Bool) : M Bool := do
  let ok ← wmutexTryLock
  if ok then pure true else m

/-! ## Windows: basic_condition_variable_windows.hpp -/

/-- `lock_guard< mutex_type > internal_lock(m_internal_mutex)` around a block: lines 174, 186, 286, 336, 346, 369, 388, 400, 425, 439, 452;
lock_guard.hpp 47-59. -/
def withInternal {α : Type} (m : M α) : M α := do
  wmutexLock
  guarded m (noexcept wmutexUnlock)

/-- `new waiter_state()`, lines 85-95, 291, 314. -/
def newWaiter : M Unit := do
  let p ← sys .new
  if p.res = 0 then throwExc .badAlloc .none
  let h ← sys .CreateSemaphore
  if h.res = 0 then
    let err ← getLastError
    throwExc .resourceError (.os err)

/-- `wake_waiters`, lines 259-282; each round of the loop reads `n` (line 266). -/
def wakeWaiters (count : Nat) : M Unit := noexcept do
  let _ ← sys .mem
  if count > 0 then
    loop (fun _ => .mem) (fun count n => do
      let n := min n.res.toNat count
      if n > 0 then let _ ← sys (.ReleaseSemaphore .cv)
      pure (if count - n > 0 then .inl (count - n) else .inr ())) count

/-- Lines 170-180. -/
def wcvNotifyOne : M Unit := noexcept do
  let total ← sys .mem
  if total.res > 0 then
    withInternal do
      let total ← sys .mem
      if total.res = 0 then pure () else wakeWaiters 1

/-- Lines 182-193. -/
def wcvNotifyAll : M Unit := noexcept do
  let total ← sys .mem
  if total.res > 0 then
    withInternal do
      let total ← sys .mem
      if total.res = 0 then pure () else wakeWaiters total.res.toNat

/-- `initiate_wait`, lines 284-325.  The search 299-311 reads one state per round; 0: it is usable, 1: it is not and the next one is not `end`,
otherwise: none found. -/
def initiateWait : M Unit := withInternal do
  let state ← sys .mem
  if state.res = 0 then newWaiter
  else
    let found ← loop (fun _ => .mem) (fun _ s =>
      pure (if s.res = 0 then .inr true else if s.res = 1 then .inl () else .inr false)) ()
    if found then pure () else newWaiter

/-- Lines 336-342, 388-394, 425-431 and the exception: lines 334-343, 386-395, 423-432. -/
def waitFailure {α : Type} : M α := do
  let err ← getLastError
  withInternal do
    let _ ← sys .mem
  throwExc .waitError (.os err)

/-- `priv_wait`, lines 327-355. -/
def wcvPrivWait : M Unit :=
  loop (fun _ => .waitInfinite .cv) (fun _ res => do
    if res.res ≠ 0 then waitFailure
    else
      let notified ← withInternal (sys .mem)
      pure (if notified.res > 0 then .inr () else .inl ())) ()

/-- The loop of `priv_timed_wait`, lines 359-397. -/
def wcvWaitRel (t : Int) : M Bool :=
  if t > 0 then
    loop (fun left => .waitFor .cv (chunk left)) (fun left res => do
      if res.res = 0 then
        let notified ← withInternal (sys .mem)
        pure (if notified.res > 0 then .inr true else .inl left)
      else if res.res = waitTimeout then
        let left := left - ((chunk left).toNat : Int)
        pure (if left > 0 then .inl left else .inr false)
      else waitFailure) t
  else pure false

/-- `priv_timed_wait`, lines 357-410; `true`: `no_timeout`. -/
def wcvPrivTimedRel (t : Int) : M Bool := do
  let notified ← wcvWaitRel t
  if notified then pure true
  else
    let notified ← withInternal (sys .mem)
    pure (notified.res > 0)

/-- `priv_timed_wait`, lines 412-469; other results of `WaitForMultipleObjects` (line 466) count as an assertion. -/
def wcvPrivTimedAbs : M Bool :=
  loop (fun _ => .WaitForMultipleObjects .cv) (fun _ res => do
    if res.res = waitFailed then waitFailure
    else if res.res = 0 then
      let notified ← withInternal (sys .mem)
      pure (if notified.res > 0 then .inr true else .inl ())
    else if res.res = 1 then
      let notified ← withInternal (sys .mem)
      pure (.inr (notified.res > 0))
    else
      verify true false
      pure (.inr false)) ()

/-- `lock` of the user's object (line 121, condition_variable_any_generic.hpp 56). -/
def userLock : M Unit := do
  let r ← sys .userLock
  if r.res ≠ 0 then throwExc .user (.os r.res)

/-- `unlock` of the user's object (condition_variable_any_generic.hpp 61). -/
def userUnlock : M Unit := do
  let r ← sys .userUnlock
  if r.res ≠ 0 then throwExc .user (.os r.res)

/-- Lines 198-204, 210-216, 222-236 around one of the functions above: `relocker::unlock` is `noexcept` (124-128), its destructor (118-122) locks
only after that. -/
def wcvWaiting {α : Type} (m : M α) : M α := do
  initiateWait
  noexcept userUnlock
  guarded m userLock

/-- Lines 195-205. -/
def wcvWait : M Unit := wcvWaiting wcvPrivWait

/-- Lines 207-217. -/
def wcvTimedRel (t : Int) : M Bool := wcvWaiting (wcvPrivTimedRel t)

/-- Lines 219-237. -/
def wcvTimedAbs : M Bool := do
  getWaitableTimer
  let r ← sys (.SetWaitableTimer .cv)
  if r.res = 0 then
    let err ← getLastError
    throwExc .waitError (.os err)
  wcvWaiting wcvPrivTimedAbs

/-! ## basic_semaphore_mach.hpp, semaphore_dispatch.hpp, auto_handle.hpp -/

/-- basic_semaphore_mach.hpp 47-52. -/
def machCtor : M Unit := do
  let result ← sys .semaphore_create
  if result.res ≠ 0 then throwExc .resourceError .not_enough_memory

/-- basic_semaphore_mach.hpp 54-57. -/
def machDtor (c : Cfg) : M Unit := noexcept do
  let r ← sys .semaphore_destroy
  verify c.debug (r.res == 0)

/-- basic_semaphore_mach.hpp 59-62. -/
def machPost (c : Cfg) : M Unit := do
  let r ← sys .semaphore_signal
  verify c.debug (r.res == 0)

/-- basic_semaphore_mach.hpp 64-67. -/
def machPostAll (c : Cfg) : M Unit := do
  let r ← sys .semaphore_signal_all
  verify c.debug (r.res == 0)

/-- basic_semaphore_mach.hpp 69-94. -/
def machWait : M Unit :=
  loop (fun _ => .semaphore_wait) (fun _ result => do
    if result.res ≠ 0 then
      if result.res = KERN_INVALID_ARGUMENT then throwExc .waitError .invalid_argument
      else if result.res = KERN_TERMINATED then throwExc .waitError .invalid_argument
      else if result.res = KERN_ABORTED then pure (.inl ())
      else throwExc .waitError .operation_canceled
    else pure (.inr ())) ()

/-- basic_semaphore_mach.hpp 151-175; `try_wait` (96-100) and the overloads of `timed_wait` (102-132) call it once. -/
def machTimedWait : M Bool := do
  let result ← sys .semaphore_timedwait
  if result.res = 0 then pure true
  else
    if result.res ≠ KERN_OPERATION_TIMED_OUT then
      if result.res = KERN_INVALID_ARGUMENT then throwExc .waitError .invalid_argument
      else if result.res = KERN_TERMINATED then throwExc .waitError .invalid_argument
      else throwExc .waitError .operation_canceled
    pure false

/-- semaphore_dispatch.hpp 43-54. -/
def dispatchSignals : Nat → M Unit
  | 0 => pure ()
  | i + 1 => do
    let _ ← sys .dispatch_semaphore_signal
    dispatchSignals i

/-- semaphore_dispatch.hpp 43-54. -/
def dispatchCtor (i : Nat) : M Unit := do
  let p ← sys .dispatch_semaphore_create
  if p.res = 0 then throwExc .resourceError .not_enough_memory
  dispatchSignals i

/-- semaphore_dispatch.hpp 56-59. -/
def dispatchDtor : M Unit := noexcept do
  let _ ← sys .dispatch_release

/-- semaphore_dispatch.hpp 61-64. -/
def dispatchPost : M Unit := do
  let _ ← sys .dispatch_semaphore_signal

/-- semaphore_dispatch.hpp 66-69. -/
def dispatchWait : M Unit := do
  let _ ← sys .dispatch_semaphore_wait

/-- semaphore_dispatch.hpp 71-74, 95-117, 119-124. -/
def dispatchTimedWait : M Bool := do
  let r ← sys .dispatch_semaphore_wait
  pure (r.res == 0)

/-- auto_handle.hpp 59-66; also the destructor 54-57.  `owns`: `m_handle` is neither null nor `invalid_handle_value`. -/
def autoHandleReset (c : Cfg) (owns : Bool) : M Unit := noexcept do
  if owns then
    let r ← sys (.CloseHandle (some .event))
    verify c.debug (r.res != 0)

/-- auto_handle.hpp 90-100. -/
def autoHandleDuplicate : M Unit := do
  let r ← sys .DuplicateHandle
  if r.res = 0 then
    let err ← getLastError
    throwExc .resourceError (.os err)

/-! ## Functions built from the above -/

/-- The overloads for clocks of the user: `while (now < t.get()) …` in timed_mutex_windows.hpp 211-224, timed_mutex_posix.hpp 252-261,
condition_variable_posix.hpp 236-243, basic_condition_variable_windows.hpp 245-252, basic_semaphore_mach.hpp 140-147; the loops
`do … while (now < t.get())` of basic_event_windows.hpp 177-186, semaphore_posix.hpp 175-182, semaphore_windows.hpp 185-194,
semaphore_dispatch.hpp 132-139 have `first`.  The clock says how many milliseconds are left, 0 if none. -/
def clockLoop (first : Bool) (rel : Int → M Bool) : M Bool :=
  loop (fun _ => .mem) (fun first now => do
    if now.res = 0 ∧ !first then pure (.inr false)
    else
      let ok ← rel (now.res.toNat : Int)
      pure (if ok then .inr true else .inl false)) first

/-- `post` of auto_reset_event_semaphore.hpp 43-64 over the `post` of a semaphore.  `mem`: whether this call changes the state, i.e. whether line 52
is reached. -/
def autoSemPost (post : M Unit) : M Unit := noexcept do
  let changed ← sys .mem
  if changed.res ≠ 0 then post

/-- `wait` of auto_reset_event_semaphore.hpp 66-70. -/
def autoSemWait (wait : M Unit) : M Unit := do
  let _ ← sys .mem
  wait

/-- `try_wait`, `timed_wait` of auto_reset_event_semaphore.hpp 72-82, 84-96. -/
def autoSemTimedWait (wait : M Bool) : M Bool := do
  let _ ← sys .mem
  let ok ← wait
  if ok then pure true
  else
    let _ ← sys .mem
    pure false

/-- A block that holds `m_mutex` in semaphore_emulation.hpp 44-87, auto_reset_event_emulation.hpp 44-91,
manual_reset_event_emulation.hpp 44-91 (with the mutex of mutex_posix.hpp). -/
def emuGuard {α : Type} (c : Cfg) (m : M α) : M α := do
  mutexLock c
  guarded m (noexcept (mutexUnlock c))

/-- `post`, `set`: semaphore_emulation.hpp 44-49, auto_reset_event_emulation.hpp 44-53, manual_reset_event_emulation.hpp 44-53 (`all`).  `mem`:
whether threads are notified. -/
def emuPost (c : Cfg) (all : Bool) : M Unit := emuGuard c do
  let notify ← sys .mem
  if notify.res ≠ 0 then (if all then condNotifyAll c else condNotifyOne c)

/-- `try_wait`, `reset`: semaphore_emulation.hpp 60-68, auto_reset_event_emulation.hpp 65-72, manual_reset_event_emulation.hpp 55-59, 69-73. -/
def emuTryWait (c : Cfg) : M Bool := emuGuard c do
  let available ← sys .mem
  pure (available.res != 0)

/-- `wait`: semaphore_emulation.hpp 51-58, auto_reset_event_emulation.hpp 55-63, manual_reset_event_emulation.hpp 61-67. -/
def emuWait (c : Cfg) : M Unit := emuGuard c (loop (fun _ => .mem) (fun _ available => do
  if available.res = 0 then
    condWait c
    pure (.inl ())
  else pure (.inr ())) ())

/-- `timed_wait`: semaphore_emulation.hpp 70-87, auto_reset_event_emulation.hpp 74-91, manual_reset_event_emulation.hpp 75-91. -/
def emuTimedWait (c : Cfg) : M Bool := emuGuard c (loop (fun _ => .mem) (fun _ available => do
  if available.res = 0 then
    let ok ← condTimedWait c
    if !ok then
      let available ← sys .mem
      pure (.inr (available.res != 0))
    else pure (.inl ())
  else pure (.inr true)) ())

/-- condition_variable_any_generic.hpp 78-88. -/
def anyNotify (c : Cfg) (all : Bool) : M Unit := emuGuard c (if all then condNotifyAll c else condNotifyOne c)

/-- condition_variable_any_generic.hpp 90-97 (and 106-114, 128-136 with `condTimedWait`).  If `lock.unlock()` (line 61) throws, the destructor of
`relocker` (53-57) does not lock; otherwise it locks after `internal_lock` has been destroyed. -/
def anyWaiting {α : Type} (c : Cfg) (m : M α) : M α := do
  mutexLock c
  rethrowing userUnlock (noexcept (mutexUnlock c))
  guarded (guarded m (noexcept (mutexUnlock c))) userLock

end Verif.Failures
