import Verif.Proof.Failures

/-!
# C92: failures of the operating system are reported; C93: functions that must not throw do not terminate the process

`Fulfils bug extra R m`: for all answers of the operating system that are documented and fulfil `extra`, the calls that `m` makes and the way it
ends fulfil `R` (`Verif.Spec.Failures`).
-/

namespace Verif.Failures

open Verif.OsCall Verif.Spec.Failures Verif.Failures.Proof

/-- Answers, for the examples: a result, and a result with an error code. -/
abbrev ok (n : UInt32) : Ans := ⟨n, 0⟩
@[inherit_doc ok] abbrev er (n e : UInt32) : Ans := ⟨n, e⟩

/-! ## C92 -/

/-- POSIX: constructors, `lock`, `try_lock`, `timed_lock` with `pthread_mutex_timedlock`, `wait`, `timed_wait` of condition variables and
`semaphore::post` report every failure with the code that the system gave. -/
theorem C92_posix_failures_reported (c : Cfg) :
    Fulfils c.eintrBug always (Reported never c.debug) mutexCtor ∧
    Fulfils c.eintrBug always (Reported never c.debug) (mutexLock c) ∧
    Fulfils c.eintrBug always (Reported never c.debug) (mutexTryLock c) ∧
    Fulfils c.eintrBug always (Reported never c.debug) (timedMutexCtor c) ∧
    (c.timedlock = true →
      Fulfils c.eintrBug always (Reported never c.debug) (timedMutexLock c) ∧
      Fulfils c.eintrBug always (Reported never c.debug) (timedMutexTryLock c) ∧
      Fulfils c.eintrBug always (Reported never c.debug) (timedMutexTimedLock c) ∧
      Fulfils c.eintrBug always (Reported never c.debug) (clockLoop false (fun _ => timedMutexTimedLock c))) ∧
    Fulfils c.eintrBug always (Reported never c.debug) condCtor ∧
    Fulfils c.eintrBug always (Reported never c.debug) (condWait c) ∧
    Fulfils c.eintrBug always (Reported never c.debug) (condTimedWait c) ∧
    Fulfils c.eintrBug always (Reported never c.debug) (clockLoop false (fun _ => condTimedWait c)) ∧
    Fulfils c.eintrBug always (Reported never c.debug) semCtor ∧
    Fulfils c.eintrBug always (Reported never c.debug) (semPost c) :=
  ⟨fulfils_of_rep (rep_mutexCtor _ _ _ _), fulfils_of_rep (rep_mutexLock c _ _), fulfils_of_rep (rep_mutexTryLock c _ _),
    fulfils_of_rep (rep_timedMutexCtor c _ _),
    fun h => ⟨fulfils_of_rep (rep_timedMutexLock_native c _ _ h), fulfils_of_rep (rep_timedMutexTryLock_native c _ _ h),
      fulfils_of_rep (rep_timedMutexTimedLock_native c _ _ h),
      fulfils_of_rep (rep_clockLoop _ _ _ _ _ (fun _ => rep_timedMutexTimedLock_native c _ _ h) false)⟩,
    fulfils_of_rep (rep_condCtor _ _ _ _), fulfils_of_rep (rep_condWait c _ _), fulfils_of_rep (rep_condTimedWait c _ _),
    fulfils_of_rep (rep_clockLoop _ _ _ _ _ (fun _ => rep_condTimedWait c _ _) false),
    fulfils_of_rep (rep_semCtor _ _ _ _), fulfils_of_rep (rep_semPost c _ _)⟩

/-- `pthread_mutex_lock` fails with `EDEADLK` after an interruption on a platform that has them. -/
example : ∃ as, (∀ x ∈ (mutexLock ⟨false, true, true⟩ 0 as).log, Documented true x ∧ always x) ∧
    (mutexLock ⟨false, true, true⟩ 0 as).out = .threw ⟨.lockError, .os 35⟩ := by
  have hlog : (mutexLock ⟨false, true, true⟩ 0 [ok 4, ok 35]).log = [⟨.pthread_mutex_lock, ok 4⟩, ⟨.pthread_mutex_lock, ok 35⟩] := by
    decide +kernel
  refine ⟨[ok 4, ok 35], ?_, by decide +kernel⟩
  rw [hlog]; simp [always]

/-- The waits of the POSIX semaphore, and of the event over it, do so if the system does not detect deadlocks.  Otherwise debug builds stop with an assertion. -/
theorem C92_posix_semaphore_waits_partial (c : Cfg) :
    Fulfils c.eintrBug noDeadlock (Reported never c.debug) (semWait c) ∧
    Fulfils c.eintrBug noDeadlock (Reported never c.debug) (semTryWait c) ∧
    Fulfils c.eintrBug noDeadlock (Reported never c.debug) (semTimedWait c) ∧
    Fulfils c.eintrBug noDeadlock (Reported never c.debug) (clockLoop true (fun _ => semTimedWait c)) ∧
    Fulfils c.eintrBug noDeadlock (Reported never c.debug) (autoSemWait (semWait c)) ∧
    Fulfils c.eintrBug noDeadlock (Reported never c.debug) (autoSemTimedWait (semTryWait c)) ∧
    Fulfils c.eintrBug noDeadlock (Reported never c.debug) (autoSemTimedWait (semTimedWait c)) ∧
    Fulfils c.eintrBug always (Noticed c.debug) (semWait c) ∧
    Fulfils c.eintrBug always (Noticed c.debug) (semTryWait c) ∧
    Fulfils c.eintrBug always (Noticed c.debug) (semTimedWait c) :=
  ⟨fulfils_of_rep (rep_semWait c _), fulfils_of_rep (rep_semTryWait c _), fulfils_of_rep (rep_semTimedWait c _),
    fulfils_of_rep (rep_clockLoop _ _ _ _ _ (fun _ => rep_semTimedWait c _) true),
    fulfils_of_rep (rep_autoSemWait _ _ _ _ _ (rep_semWait c _)), fulfils_of_rep (rep_autoSemTimedWait _ _ _ _ _ (rep_semTryWait c _)),
    fulfils_of_rep (rep_autoSemTimedWait _ _ _ _ _ (rep_semTimedWait c _)),
    noticed_of_rep (rep_semWait_noticed c), noticed_of_rep (rep_semTryWait_noticed c), noticed_of_rep (rep_semTimedWait_noticed c)⟩

example : ∃ as, (∀ x ∈ (semTimedWait ⟨true, false, true⟩ 0 as).log, Documented false x ∧ noDeadlock x) ∧
    (semTimedWait ⟨true, false, true⟩ 0 as).out = .assertion := by
  have hlog : (semTimedWait ⟨true, false, true⟩ 0 [er 0xFFFFFFFF 4, er 0xFFFFFFFF 22]).log =
      [⟨.sem_timedwait, er 0xFFFFFFFF 4⟩, ⟨.sem_timedwait, er 0xFFFFFFFF 22⟩] := by decide +kernel
  refine ⟨[er 0xFFFFFFFF 4, er 0xFFFFFFFF 22], ?_, by decide +kernel⟩
  rw [hlog]; simp [noDeadlock]

/-- With `NDEBUG`, `semaphore::wait` (POSIX) returns as if it had decremented the semaphore although `sem_wait` has failed with
`EDEADLK` (semaphore_posix.hpp 92-95). -/
theorem C92_posix_semaphore_wait_refuted :
    ∃ as, (∀ x ∈ (semWait ⟨false, false, true⟩ 0 as).log, Documented false x) ∧
      ⟨.sem_wait, er 0xFFFFFFFF 35⟩ ∈ (semWait ⟨false, false, true⟩ 0 as).log ∧
      (semWait ⟨false, false, true⟩ 0 as).out = .ret () ∧
      ¬ Reported never false (semWait ⟨false, false, true⟩ 0 as).log (semWait ⟨false, false, true⟩ 0 as).out := by
  have hlog : (semWait ⟨false, false, true⟩ 0 [er 0xFFFFFFFF 35]).log = [⟨.sem_wait, er 0xFFFFFFFF 35⟩] := by decide +kernel
  have hout : (semWait ⟨false, false, true⟩ 0 [er 0xFFFFFFFF 35]).out = .ret () := by decide +kernel
  refine ⟨[er 0xFFFFFFFF 35], ?_, ?_, hout, ?_⟩
  · rw [hlog]; simp
  · rw [hlog]; simp
  · rw [hlog, hout]; simp [Reported]

/-- The timed mutex of POSIX without `pthread_mutex_timedlock`: failures of `pthread_mutex_lock`, `pthread_cond_wait` and of the unlocking are treated
like misuse; only the failure of `pthread_cond_timedwait` is reported. -/
theorem C92_posix_emulated_timed_mutex_partial (c : Cfg) (h : c.timedlock = false) :
    Fulfils c.eintrBug always (Noticed c.debug) (timedMutexLock c) ∧
    Fulfils c.eintrBug always (Noticed c.debug) (timedMutexTryLock c) ∧
    Fulfils c.eintrBug always (Noticed c.debug) (timedMutexTimedLock c) ∧
    Fulfils c.eintrBug always (Noticed c.debug) (timedMutexUnlock c) :=
  ⟨noticed_of_rep (rep_timedMutexLock_emulated c h), noticed_of_rep (rep_timedMutexTryLock_emulated c h),
    noticed_of_rep (rep_timedMutexTimedLock_emulated c h), noticed_of_rep (rep_timedMutexUnlock_emulated c h)⟩

/-- The mutex is locked (1), the wait fails with `EINVAL`: debug builds stop, … -/
example : ∃ as, (∀ x ∈ (timedMutexLock ⟨true, false, false⟩ 0 as).log, Documented false x) ∧
    (timedMutexLock ⟨true, false, false⟩ 0 as).out = .assertion := by
  have hlog : (timedMutexLock ⟨true, false, false⟩ 0 [ok 0, ok 1, ok 22]).log =
      [⟨.pthread_mutex_lock, ok 0⟩, ⟨.mem, ok 1⟩, ⟨.pthread_cond_wait .mutex, ok 22⟩] := by decide +kernel
  refine ⟨[ok 0, ok 1, ok 22], ?_, by decide +kernel⟩
  rw [hlog]; simp

/-- … and others lock the mutex without holding the internal one: here `pthread_mutex_lock` has failed, and `lock` returns
(timed_mutex_posix.hpp 148-156, pthread_mutex_locks.hpp 41-44). -/
theorem C92_posix_emulated_timed_mutex_refuted :
    ∃ as, (∀ x ∈ (timedMutexLock ⟨false, false, false⟩ 0 as).log, Documented false x) ∧
      ⟨.pthread_mutex_lock, ok 35⟩ ∈ (timedMutexLock ⟨false, false, false⟩ 0 as).log ∧
      (timedMutexLock ⟨false, false, false⟩ 0 as).out = .ret () := by
  have hlog : (timedMutexLock ⟨false, false, false⟩ 0 [ok 35, ok 0, ok 0]).log =
      [⟨.pthread_mutex_lock, ok 35⟩, ⟨.mem, ok 0⟩, ⟨.pthread_mutex_unlock, ok 0⟩] := by decide +kernel
  refine ⟨[ok 35, ok 0, ok 0], ?_, ?_, by decide +kernel⟩
  · rw [hlog]; simp
  · rw [hlog]; simp

/-- The semaphore and the events built from a mutex and a condition variable (POSIX), and `condition_variable_any`. -/
theorem C92_emulated_failures_reported (c : Cfg) (all : Bool) :
    Fulfils c.eintrBug always (Reported never c.debug) (emuPost c all) ∧
    Fulfils c.eintrBug always (Reported never c.debug) (emuTryWait c) ∧
    Fulfils c.eintrBug always (Reported never c.debug) (emuWait c) ∧
    Fulfils c.eintrBug always (Reported never c.debug) (emuTimedWait c) ∧
    Fulfils c.eintrBug always (Reported never c.debug) (anyNotify c all) ∧
    Fulfils c.eintrBug always (Reported relockFails c.debug) (anyWaiting c (condWait c)) ∧
    Fulfils c.eintrBug always (Reported relockFails c.debug) (anyWaiting c (condTimedWait c)) :=
  ⟨fulfils_of_rep (rep_emuPost c _ _ all), fulfils_of_rep (rep_emuTryWait c _ _), fulfils_of_rep (rep_emuWait c _ _),
    fulfils_of_rep (rep_emuTimedWait c _ _), fulfils_of_rep (rep_anyNotify c _ _ all),
    fulfils_of_rep (rep_anyWaiting c _ _ (fun _ h => ⟨rfl, h⟩) (rep_condWait c _ _)),
    fulfils_of_rep (rep_anyWaiting c _ _ (fun _ h => ⟨rfl, h⟩) (rep_condTimedWait c _ _))⟩

/-- The wait fails with `EPERM` (1): the internal mutex is unlocked, the user's mutex is locked again, and the exception passes. -/
example : ∃ as, (∀ x ∈ (anyWaiting ⟨true, false, true⟩ (condWait ⟨true, false, true⟩) 0 as).log, Documented false x ∧ always x) ∧
    (anyWaiting ⟨true, false, true⟩ (condWait ⟨true, false, true⟩) 0 as).out = .threw ⟨.waitError, .os 1⟩ ∧
    (anyWaiting ⟨true, false, true⟩ (condWait ⟨true, false, true⟩) 0 as).log.map Call.api =
      [.pthread_mutex_lock, .userUnlock, .pthread_cond_wait .cv, .pthread_mutex_unlock, .userLock] := by
  refine ⟨[ok 0, ok 0, ok 1, ok 0, ok 0], ?_, rfl, rfl⟩
  intro x hx
  have hx : x ∈ [⟨.pthread_mutex_lock, ok 0⟩, ⟨.userUnlock, ok 0⟩, ⟨.pthread_cond_wait .cv, ok 1⟩, ⟨.pthread_mutex_unlock, ok 0⟩,
    (⟨.userLock, ok 0⟩ : Call)] := hx
  simp only [List.mem_cons, List.not_mem_nil, or_false] at hx
  rcases hx with rfl | rfl | rfl | rfl | rfl <;> simp [always]

/-- The event, the handle and the waitable timer of Windows. -/
theorem C92_windows_event_failures_reported (c : Cfg) (t : Int) :
    Fulfils c.eintrBug always (Reported never c.debug) eventCtor ∧
    Fulfils c.eintrBug always (Reported never c.debug) eventSet ∧
    Fulfils c.eintrBug always (Reported never c.debug) eventReset ∧
    Fulfils c.eintrBug always (Reported never c.debug) eventWait ∧
    Fulfils c.eintrBug always (Reported never c.debug) eventTryWait ∧
    Fulfils c.eintrBug always (Reported never c.debug) (eventTimedRel t) ∧
    Fulfils c.eintrBug always (Reported never c.debug) (eventTimedAbs c) ∧
    Fulfils c.eintrBug always (Reported never c.debug) (clockLoop true eventTimedRel) ∧
    Fulfils c.eintrBug always (Reported never c.debug) autoHandleDuplicate ∧
    Fulfils c.eintrBug always (Reported never c.debug) getWaitableTimer :=
  ⟨fulfils_of_rep (rep_eventCtor _ _ _ _), fulfils_of_rep (rep_eventSet _ _ _ _), fulfils_of_rep (rep_eventReset _ _ _ _),
    fulfils_of_rep (rep_eventWait _ _ _ _), fulfils_of_rep (rep_eventTryWait _ _ _ _), fulfils_of_rep (rep_eventTimedRel _ _ _ _ t),
    fulfils_of_rep (rep_eventTimedAbs c _ _), fulfils_of_rep (rep_clockLoop _ _ _ _ _ (fun t => rep_eventTimedRel _ _ _ _ t) true),
    fulfils_of_rep (rep_autoHandleDuplicate _ _ _ _), fulfils_of_rep (rep_getWaitableTimer _ _ _ _)⟩

/-- The timer of the thread exists (its context is found in the TLS slot), `SetWaitableTimer` fails with code 6. -/
example : ∃ as, (eventTimedAbs ⟨false, false, true⟩ 0 as).out = .threw ⟨.waitError, .os 6⟩ ∧
    (eventTimedAbs ⟨false, false, true⟩ 0 as).log.map Call.api = [.mem, .TlsGetValue, .boost_version, .SetWaitableTimer .event] :=
  ⟨[ok 2, ok 1, ok 0, er 0 6], rfl, rfl⟩

/-- The timer cannot be created (code 8): the context is deleted, and the error is that of `CreateWaitableTimer`, not that of the clean-up. -/
example : ∃ as, (getWaitableTimer 0 as).out = .threw ⟨.resourceError, .os 8⟩ ∧
    (getWaitableTimer 0 as).log.map Call.api =
      [.mem, .TlsGetValue, .new, .DuplicateHandle, .RegisterWait, .CreateTimer, .UnregisterWait, .CloseHandle none] :=
  ⟨[ok 2, ok 0, ok 1, ok 1, ok 1, er 0 8, er 0 6, er 0 6], rfl, rfl⟩

/-- The mutexes of Windows. -/
theorem C92_windows_mutex_failures_reported (c : Cfg) (t : Int) :
    Fulfils c.eintrBug always (Reported never c.debug) wmutexLock ∧
    Fulfils c.eintrBug always (Reported never c.debug) wmutexTryLock ∧
    Fulfils c.eintrBug always (Reported never c.debug) (wmutexTimedLock wmutexPrivTimedAbs) ∧
    Fulfils c.eintrBug always (Reported never c.debug) (wmutexTimedLock (wmutexPrivTimedRel t)) ∧
    Fulfils c.eintrBug always (Reported never c.debug) (wmutexTimedLock (clockLoop false wmutexPrivTimedRel)) :=
  ⟨fulfils_of_rep (rep_wmutexLock _ _ _ _), fulfils_of_rep (rep_wmutexTryLock _ _ _ _ allOf),
    fulfils_of_rep (rep_wmutexTimedLock _ _ _ _ (rep_wmutexPrivTimedAbs _ _ _ _)),
    fulfils_of_rep (rep_wmutexTimedLock _ _ _ _ (rep_wmutexPrivTimedRel _ _ _ _ t)),
    fulfils_of_rep (rep_wmutexTimedLock _ _ _ _ (rep_clockLoop _ _ _ _ _ (fun t => rep_wmutexPrivTimedRel _ _ _ _ t) false))⟩

/-- The mutex is locked (the words read have the lock flag), the event does not exist and cannot be created (code 8). -/
example : ∃ as, (wmutexLock 0 as).out = .threw ⟨.resourceError, .os 8⟩ ∧
    (wmutexLock 0 as).log.map Call.api = [.mem, .mem, .mem, .mem, .CreateEvent, .mem] :=
  ⟨[ok 0x80000000, ok 0x80000000, ok 0x80000000, ok 0, er 0 8, ok 0], rfl, rfl⟩

/-- The semaphore of Windows, apart from `post` and waits until a time point; these report the failures named in `onlyOverflow`, and all
but that of `WaitForMultipleObjects`. -/
theorem C92_windows_semaphore_failures_partial (c : Cfg) (t : Int) :
    Fulfils c.eintrBug always (Reported never c.debug) wsemCtor ∧
    Fulfils c.eintrBug always (Reported never c.debug) wsemWait ∧
    Fulfils c.eintrBug always (Reported never c.debug) wsemTryWait ∧
    Fulfils c.eintrBug always (Reported never c.debug) (wsemTimedRel t) ∧
    Fulfils c.eintrBug always (Reported never c.debug) (clockLoop true wsemTimedRel) ∧
    Fulfils c.eintrBug onlyOverflow (Reported never c.debug) wsemPost ∧
    Fulfils c.eintrBug semWaitOk (Reported never c.debug) (wsemTimedAbs c) :=
  ⟨fulfils_of_rep (rep_wsemCtor _ _ _ _), fulfils_of_rep (rep_wsemWait _ _ _ _), fulfils_of_rep (rep_wsemTryWait _ _ _ _),
    fulfils_of_rep (rep_wsemTimedRel _ _ _ _ t), fulfils_of_rep (rep_clockLoop _ _ _ _ _ (fun t => rep_wsemTimedRel _ _ _ _ t) true),
    fulfils_of_rep (rep_wsemPost _ _ _), fulfils_of_rep (rep_wsemTimedAbs c _)⟩

example : ∃ as, (∀ x ∈ (wsemPost 0 as).log, onlyOverflow x) ∧ (wsemPost 0 as).out = .threw ⟨.overflowError, .os 298⟩ :=
  ⟨[er 0 298], fun x hx => by
    have hx : x ∈ [(⟨.ReleaseSemaphore .semaphore, er 0 298⟩ : Call)] := hx
    simp only [List.mem_singleton] at hx
    subst hx
    exact fun _ => .inr rfl, rfl⟩

/-- A failed wait until a time point throws `lock_error` instead of `wait_error` (semaphore_windows.hpp 174); every failure of `ReleaseSemaphore` is
called an overflow, here an invalid handle (6, semaphore_windows.hpp 66-71). -/
theorem C92_windows_semaphore_failures_refuted :
    (∃ as, (∀ x ∈ (wsemTimedAbs ⟨false, false, true⟩ 0 as).log, Documented false x) ∧
      ⟨.WaitForMultipleObjects .semaphore, er 0xFFFFFFFF 6⟩ ∈ (wsemTimedAbs ⟨false, false, true⟩ 0 as).log ∧
      (wsemTimedAbs ⟨false, false, true⟩ 0 as).out = .threw ⟨.lockError, .os 6⟩ ∧
      ¬ Reported never false (wsemTimedAbs ⟨false, false, true⟩ 0 as).log (wsemTimedAbs ⟨false, false, true⟩ 0 as).out) ∧
    (∃ as, (∀ x ∈ (wsemPost 0 as).log, Documented false x) ∧
      ⟨.ReleaseSemaphore .semaphore, er 0 6⟩ ∈ (wsemPost 0 as).log ∧
      (wsemPost 0 as).out = .threw ⟨.overflowError, .os 6⟩ ∧
      ¬ Reported never false (wsemPost 0 as).log (wsemPost 0 as).out) := by
  constructor
  · have hlog : (wsemTimedAbs ⟨false, false, true⟩ 0 [ok 2, ok 1, ok 0, ok 1, er 0xFFFFFFFF 6]).log =
        [⟨.mem, ok 2⟩, ⟨.TlsGetValue, ok 1⟩, ⟨.boost_version, ok 0⟩, ⟨.SetWaitableTimer .semaphore, ok 1⟩,
          ⟨.WaitForMultipleObjects .semaphore, er 0xFFFFFFFF 6⟩] := rfl
    have hout : (wsemTimedAbs ⟨false, false, true⟩ 0 [ok 2, ok 1, ok 0, ok 1, er 0xFFFFFFFF 6]).out = .threw ⟨.lockError, .os 6⟩ := rfl
    refine ⟨[ok 2, ok 1, ok 0, ok 1, er 0xFFFFFFFF 6], ?_, ?_, hout, ?_⟩
    · rw [hlog]; simp
    · rw [hlog]; simp
    · rw [hlog, hout]; simp [Reported, waitCls]
  · have hlog : (wsemPost 0 [er 0 6]).log = [⟨.ReleaseSemaphore .semaphore, er 0 6⟩] := rfl
    have hout : (wsemPost 0 [er 0 6]).out = .threw ⟨.overflowError, .os 6⟩ := rfl
    refine ⟨[er 0 6], ?_, ?_, hout, ?_⟩
    · rw [hlog]; simp
    · rw [hlog]; simp
    · rw [hlog, hout]; simp [Reported]

/-- The condition variable of Windows: unless the process is terminated (C93), waiting functions report every failure of the system and of the
user's mutex. -/
theorem C92_windows_cv_failures_partial (bug : Bool) (t : Int) :
    Fulfils bug always (Reported (fun c => eventFails c ∨ userFails c) false) wcvWait ∧
    Fulfils bug always (Reported (fun c => eventFails c ∨ userFails c) false) (wcvTimedRel t) ∧
    Fulfils bug always (Reported (fun c => eventFails c ∨ userFails c) false) wcvTimedAbs ∧
    Fulfils bug always (Reported (fun c => eventFails c ∨ userFails c) false) (clockLoop false wcvTimedRel) := by
  have hw : false = true → ∀ c, always c → wakesUp c := fun h => by cases h
  have hX : ∀ r : Ans, r.res = 0 → (fun c => eventFails c ∨ userFails c) ⟨.CreateEvent, r⟩ := fun r h => .inl ⟨rfl, h⟩
  have hl : ∀ r : Ans, r.res ≠ 0 → (fun c => eventFails c ∨ userFails c) ⟨.userLock, r⟩ := fun r h => .inr ⟨.inl rfl, h⟩
  have hu : ∀ r : Ans, r.res ≠ 0 → (fun c => eventFails c ∨ userFails c) ⟨.userUnlock, r⟩ := fun r h => .inr ⟨.inr rfl, h⟩
  have hr : ∀ t, Rep (kT bug false always (fun c => eventFails c ∨ userFails c) allOf) (wcvTimedRel t) := fun t =>
    rep_wcvWaiting _ _ _ _ hw hX hl hu (rep_wcvPrivTimedRel _ _ _ _ hw hX t)
  exact ⟨fulfils_of_rep (rep_wcvWaiting _ _ _ _ hw hX hl hu (rep_wcvPrivWait _ _ _ _ hw hX)), fulfils_of_rep (hr t),
    fulfils_of_rep (rep_wcvTimedAbs _ _ _ _ hw hX hl hu), fulfils_of_rep (rep_clockLoop _ _ _ _ _ hr false)⟩

/-- The semaphore for a waiter cannot be created (code 8): nothing has been unlocked. -/
example : ∃ as, (wcvWait 0 as).out = .threw ⟨.resourceError, .os 8⟩ ∧
    (wcvWait 0 as).log.map Call.api = [.mem, .mem, .new, .CreateSemaphore, .mem] :=
  ⟨[ok 0, ok 0, ok 1, er 0 8, ok 0x80000000], rfl, rfl⟩

/-- Failures to wake a thread are ignored, also in debug builds: `SetEvent` in `mutex::unlock` (basic_mutex_windows.hpp 90) and `ReleaseSemaphore` in
`notify_one` (basic_condition_variable_windows.hpp 273). -/
theorem C92_windows_wakeup_failures_refuted :
    (∃ as, (∀ x ∈ (wmutexUnlock 0 as).log, Documented false x) ∧ ⟨.SetEvent .mutex, er 0 6⟩ ∈ (wmutexUnlock 0 as).log ∧
      (wmutexUnlock 0 as).out = .ret ()) ∧
    (∃ as, (∀ x ∈ (wcvNotifyOne 0 as).log, Documented false x) ∧ ⟨.ReleaseSemaphore .cv, er 0 298⟩ ∈ (wcvNotifyOne 0 as).log ∧
      (wcvNotifyOne 0 as).out = .ret ()) := by
  constructor
  · have hlog : (wmutexUnlock 0 [ok 0x80000001, ok 0, ok 1, er 0 6]).log =
        [⟨.mem, ok 0x80000001⟩, ⟨.mem, ok 0⟩, ⟨.mem, ok 1⟩, ⟨.SetEvent .mutex, er 0 6⟩] := rfl
    refine ⟨[ok 0x80000001, ok 0, ok 1, er 0 6], ?_, ?_, rfl⟩
    · rw [hlog]; simp
    · rw [hlog]; simp
  · have hlog : (wcvNotifyOne 0 [ok 1, ok 0, ok 1, ok 0, ok 1, er 0 298, ok 0x80000000]).log =
        [⟨.mem, ok 1⟩, ⟨.mem, ok 0⟩, ⟨.mem, ok 1⟩, ⟨.mem, ok 0⟩, ⟨.mem, ok 1⟩, ⟨.ReleaseSemaphore .cv, er 0 298⟩,
          ⟨.mem, ok 0x80000000⟩] := by decide +kernel
    refine ⟨[ok 1, ok 0, ok 1, ok 0, ok 1, er 0 298, ok 0x80000000], ?_, ?_, by decide +kernel⟩
    · rw [hlog]; simp
    · rw [hlog]; simp

/-- The semaphores of macOS. -/
theorem C92_macos_failures_partial (c : Cfg) (n : Nat) :
    Fulfils c.eintrBug always (Reported never c.debug) machCtor ∧
    Fulfils c.eintrBug always (Reported never c.debug) (machPost c) ∧
    Fulfils c.eintrBug always (Reported never c.debug) (machPostAll c) ∧
    Fulfils c.eintrBug always (Reported never c.debug) machWait ∧
    Fulfils c.eintrBug notAborted (Reported never c.debug) machTimedWait ∧
    Fulfils c.eintrBug notAborted (Reported never c.debug) (clockLoop false (fun _ => machTimedWait)) ∧
    Fulfils c.eintrBug always (Reported never c.debug) (dispatchCtor n) ∧
    Fulfils c.eintrBug always (Reported never c.debug) dispatchPost ∧
    Fulfils c.eintrBug always (Reported never c.debug) dispatchWait ∧
    Fulfils c.eintrBug always (Reported never c.debug) dispatchTimedWait :=
  ⟨fulfils_of_rep (rep_machCtor _ _ _ _), fulfils_of_rep (rep_machPost c _ _), fulfils_of_rep (rep_machPostAll c _ _),
    fulfils_of_rep (rep_machWait _ _ _ _), fulfils_of_rep (rep_machTimedWait _ _ _),
    fulfils_of_rep (rep_clockLoop _ _ _ _ _ (fun _ => rep_machTimedWait _ _ _) false), fulfils_of_rep (rep_dispatchCtor _ _ _ _ n),
    fulfils_of_rep (rep_dispatchPost _ _ _ _), fulfils_of_rep (rep_dispatchWait _ _ _ _), fulfils_of_rep (rep_dispatchTimedWait _ _ _ _)⟩

example : ∃ as, (∀ x ∈ (machTimedWait 0 as).log, notAborted x) ∧ (machTimedWait 0 as).out = .threw ⟨.waitError, .invalid_argument⟩ :=
  ⟨[ok 37], fun x hx => by
    have hx : x ∈ [(⟨.semaphore_timedwait, ok 37⟩ : Call)] := hx
    simp only [List.mem_singleton] at hx
    subst hx
    intro _
    decide, rfl⟩

/-- An interrupted wait with a timeout throws, although `wait` resumes after interruptions (basic_semaphore_mach.hpp 84-86, 168-170). -/
theorem C92_macos_interruption_refuted :
    ∃ as, (∀ x ∈ (machTimedWait 0 as).log, Documented false x ∧ mustThrow x = none) ∧
      (machTimedWait 0 as).out = .threw ⟨.waitError, .operation_canceled⟩ := by
  have hlog : (machTimedWait 0 [ok 14]).log = [⟨.semaphore_timedwait, ok 14⟩] := rfl
  refine ⟨[ok 14], ?_, rfl⟩
  rw [hlog]; simp

/-! ## C93 -/

/-- Destructors, `unlock`, `notify_one` and `notify_all` neither throw nor terminate the process; misuse stops debug builds. -/
theorem C93_noexcept_functions_safe (c : Cfg) (owns w t h : Bool) :
    Fulfils c.eintrBug always (Safe never c.debug) (mutexDtor c) ∧
    Fulfils c.eintrBug always (Safe never c.debug) (mutexUnlock c) ∧
    Fulfils c.eintrBug always (Safe never c.debug) (timedMutexDtor c) ∧
    (c.timedlock = true → Fulfils c.eintrBug always (Safe never c.debug) (timedMutexUnlock c)) ∧
    Fulfils c.eintrBug always (Safe never c.debug) (condDtor c) ∧
    Fulfils c.eintrBug always (Safe never c.debug) (condNotifyOne c) ∧
    Fulfils c.eintrBug always (Safe never c.debug) (condNotifyAll c) ∧
    Fulfils c.eintrBug always (Safe never c.debug) (semDtor c) ∧
    Fulfils c.eintrBug always (Safe never c.debug) (eventDtor c) ∧
    Fulfils c.eintrBug always (Safe never c.debug) (wsemDtor c) ∧
    Fulfils c.eintrBug always (Safe never c.debug) (wmutexDtor c) ∧
    Fulfils c.eintrBug always (Safe never c.debug) (autoHandleReset c owns) ∧
    Fulfils c.eintrBug always (Safe never c.debug) (deleteCtx w t h) ∧
    Fulfils c.eintrBug always (Safe never c.debug) (machDtor c) ∧
    Fulfils c.eintrBug always (Safe never c.debug) dispatchDtor ∧
    Fulfils c.eintrBug always (Safe never c.debug) (autoSemPost (machPost c)) ∧
    Fulfils c.eintrBug always (Safe never c.debug) (autoSemPost dispatchPost) :=
  ⟨safe_of_rep (rep_mutexDtor c _ _), safe_of_rep (rep_mutexUnlock c _ _), safe_of_rep (rep_timedMutexDtor c _ _),
    fun h => safe_of_rep (rep_timedMutexUnlock_native c _ _ h), safe_of_rep (rep_condDtor c _ _),
    safe_of_rep (rep_condNotifyOne c _ _), safe_of_rep (rep_condNotifyAll c _ _), safe_of_rep (rep_semDtor c _ _),
    safe_of_rep (rep_eventDtor c _ _), safe_of_rep (rep_wsemDtor c _ _), safe_of_rep (rep_wmutexDtor c _ _),
    safe_of_rep (rep_autoHandleReset c _ _ owns), safe_of_rep (rep_deleteCtx _ _ _ _ w t h), safe_of_rep (rep_machDtor c _ _),
    safe_of_rep (rep_dispatchDtor _ _ _ _), safe_of_rep (rep_autoSemPost _ _ _ _ noneOf (rep_machPost c _ _) (fun _ h => by cases h)),
    safe_of_rep (rep_autoSemPost _ _ _ _ noneOf (rep_dispatchPost _ _ _ _) (fun _ h => by cases h))⟩

/-- A mutex that is not locked by the thread is unlocked: `EPERM`. -/
example : (mutexUnlock ⟨true, false, true⟩ 0 [ok 1]).out = .assertion ∧ (mutexUnlock ⟨false, false, true⟩ 0 [ok 1]).out = .ret () :=
  ⟨rfl, rfl⟩

/-- `unlock` (Windows) terminates the process only if `CreateEvent` fails; `notify_one` and `notify_all` only if `CreateEvent` or the wait
for the internal mutex fails; `set` of the event built from a POSIX semaphore only if the semaphore overflows.  (Failed wake-ups are never noticed:
`C92_windows_wakeup_failures_refuted`.) -/
theorem C93_noexcept_functions_partial (c : Cfg) (bug debug : Bool) :
    Fulfils bug (fun x => debug = true → wakesUp x) (Safe eventFails debug) wmutexUnlock ∧
    Fulfils bug (fun x => debug = true → wakesUp x) (Safe lockFails debug) wcvNotifyOne ∧
    Fulfils bug (fun x => debug = true → wakesUp x) (Safe lockFails debug) wcvNotifyAll ∧
    Fulfils c.eintrBug always (Safe postOverflows c.debug) (autoSemPost (semPost c)) := by
  have hX : ∀ x : Call, lockCalls x.api = true → mustThrow x ≠ none → lockFails x := by
    intro x hx hm
    obtain ⟨a, r⟩ := x
    cases a <;> simp_all [lockCalls, lockFails, eventFails]
    rename_i o
    cases o <;> simp_all
  refine ⟨safe_of_rep (rep_wmutexUnlock _ _ _ _ (fun h c hc => hc h) (fun r h => ⟨rfl, h⟩)),
    safe_of_rep (rep_wcvNotifyOne _ _ _ _ (fun h c hc => hc h) hX), safe_of_rep (rep_wcvNotifyAll _ _ _ _ (fun h c hc => hc h) hX), ?_⟩
  intro e as hd
  obtain ⟨h1, h2⟩ := safe_of_rep (X := fun x => x.api = .sem_post ∧ mustThrow x ≠ none) (rep_autoSemPost _ _ _ _ semPosts
    (rep_semPost_only c always _) (fun x hx hm => ⟨by obtain ⟨a, r⟩ := x; cases a <;> simp_all [semPosts], hm⟩)) e as hd
  refine ⟨?_, h2⟩
  cases ho : (autoSemPost (semPost c) e as).out with
  | terminated =>
    rw [ho] at h1
    obtain ⟨x, hx, ha, hm⟩ := h1
    have hdoc := (hd x hx).1
    obtain ⟨a, r⟩ := x
    subst ha
    refine ⟨_, hx, rfl, ?_⟩
    simp at hm hdoc ⊢
    grind
  | pending => trivial
  | ret a => rw [ho] at h1; exact h1
  | threw x => rw [ho] at h1; exact h1
  | assertion => rw [ho] at h1; exact h1

/-- `unlock`, `notify_one`, `notify_all` (Windows) and `set` of the event built from a POSIX semaphore do terminate the process. -/
theorem C93_noexcept_functions_refuted :
    (∃ as, (∀ x ∈ (wmutexUnlock 0 as).log, Documented false x) ∧ (wmutexUnlock 0 as).out = .terminated) ∧
    (∃ as, (∀ x ∈ (wcvNotifyOne 0 as).log, Documented false x) ∧ (wcvNotifyOne 0 as).out = .terminated) ∧
    (∃ as, (∀ x ∈ (wcvNotifyAll 0 as).log, Documented false x) ∧ (wcvNotifyAll 0 as).out = .terminated) ∧
    (∃ as, (∀ x ∈ (autoSemPost (semPost ⟨false, false, true⟩) 0 as).log, Documented false x) ∧
      (autoSemPost (semPost ⟨false, false, true⟩) 0 as).out = .terminated) := by
  -- `unlock` with a waiter whose event does not exist yet
  have h1 : (wmutexUnlock 0 [ok 0x80000001, ok 0, ok 0, er 0 8]).log =
      [⟨.mem, ok 0x80000001⟩, ⟨.mem, ok 0⟩, ⟨.mem, ok 0⟩, ⟨.CreateEvent, er 0 8⟩] := by decide +kernel
  -- `notify_one` while another thread holds the internal mutex
  have h2 : (wcvNotifyOne 0 [ok 1, ok 0x80000000, ok 0x80000000, ok 0x80000000, ok 0, er 0 8, ok 0]).log =
      [⟨.mem, ok 1⟩, ⟨.mem, ok 0x80000000⟩, ⟨.mem, ok 0x80000000⟩, ⟨.mem, ok 0x80000000⟩, ⟨.mem, ok 0⟩, ⟨.CreateEvent, er 0 8⟩,
        ⟨.mem, ok 0⟩] := by decide +kernel
  have h3 : (wcvNotifyAll 0 [ok 1, ok 0x80000000, ok 0x80000000, ok 0x80000000, ok 1, er 0xFFFFFFFF 6, ok 0]).log =
      [⟨.mem, ok 1⟩, ⟨.mem, ok 0x80000000⟩, ⟨.mem, ok 0x80000000⟩, ⟨.mem, ok 0x80000000⟩, ⟨.mem, ok 1⟩,
        ⟨.waitInfinite .mutex, er 0xFFFFFFFF 6⟩, ⟨.mem, ok 0⟩] := by decide +kernel
  have h4 : (autoSemPost (semPost ⟨false, false, true⟩) 0 [ok 1, er 0xFFFFFFFF 75]).log = [⟨.mem, ok 1⟩, ⟨.sem_post, er 0xFFFFFFFF 75⟩] := by
    decide +kernel
  refine ⟨⟨_, ?_, (by decide +kernel : (wmutexUnlock 0 [ok 0x80000001, ok 0, ok 0, er 0 8]).out = .terminated)⟩,
    ⟨_, ?_, (by decide +kernel :
      (wcvNotifyOne 0 [ok 1, ok 0x80000000, ok 0x80000000, ok 0x80000000, ok 0, er 0 8, ok 0]).out = .terminated)⟩,
    ⟨_, ?_, (by decide +kernel :
      (wcvNotifyAll 0 [ok 1, ok 0x80000000, ok 0x80000000, ok 0x80000000, ok 1, er 0xFFFFFFFF 6, ok 0]).out = .terminated)⟩,
    ⟨_, ?_, (by decide +kernel : (autoSemPost (semPost ⟨false, false, true⟩) 0 [ok 1, er 0xFFFFFFFF 75]).out = .terminated)⟩⟩
  · rw [h1]; simp
  · rw [h2]; simp
  · rw [h3]; simp
  · rw [h4]; simp

/-- Waiting terminates the process if `unlock` of the user's mutex throws (Windows), if it cannot be locked again while an exception of the wait
propagates, and if the event of the internal mutex cannot be created when it is unlocked. -/
theorem C93_waiting_terminates_refuted :
    (∃ as, (∀ x ∈ (wcvWait 0 as).log, Documented false x) ∧ (wcvWait 0 as).out = .terminated ∧
      (wcvWait 0 as).log.getLast? = some ⟨.userUnlock, ok 1⟩) ∧
    (∃ as, (∀ x ∈ (wcvWait 0 as).log, Documented false x) ∧ (wcvWait 0 as).out = .terminated ∧
      (wcvWait 0 as).log.getLast? = some ⟨.userLock, ok 1⟩) ∧
    (∃ as, (∀ x ∈ (wcvWait 0 as).log, Documented false x) ∧ (wcvWait 0 as).out = .terminated ∧
      (wcvWait 0 as).log.getLast? = some ⟨.CreateEvent, er 0 8⟩) ∧
    (∃ as, (∀ x ∈ (anyWaiting ⟨false, false, true⟩ (condWait ⟨false, false, true⟩) 0 as).log, Documented false x) ∧
      (anyWaiting ⟨false, false, true⟩ (condWait ⟨false, false, true⟩) 0 as).out = .terminated) := by
  -- `initiate_wait` finds a usable state: lock, `m_wait_state`, the state, unlock
  have h1 : (wcvWait 0 [ok 0, ok 1, ok 0, ok 0x80000000, ok 1]).log =
      [⟨.mem, ok 0⟩, ⟨.mem, ok 1⟩, ⟨.mem, ok 0⟩, ⟨.mem, ok 0x80000000⟩, ⟨.userUnlock, ok 1⟩] := by decide +kernel
  have h2 : (wcvWait 0 [ok 0, ok 1, ok 0, ok 0x80000000, ok 0, er 0xFFFFFFFF 6, ok 0, ok 0, ok 0x80000000, ok 1]).log =
      [⟨.mem, ok 0⟩, ⟨.mem, ok 1⟩, ⟨.mem, ok 0⟩, ⟨.mem, ok 0x80000000⟩, ⟨.userUnlock, ok 0⟩, ⟨.waitInfinite .cv, er 0xFFFFFFFF 6⟩,
        ⟨.mem, ok 0⟩, ⟨.mem, ok 0⟩, ⟨.mem, ok 0x80000000⟩, ⟨.userLock, ok 1⟩] := by decide +kernel
  have h3 : (wcvWait 0 [ok 0, ok 1, ok 0, ok 0x80000001, ok 0, ok 0, er 0 8]).log =
      [⟨.mem, ok 0⟩, ⟨.mem, ok 1⟩, ⟨.mem, ok 0⟩, ⟨.mem, ok 0x80000001⟩, ⟨.mem, ok 0⟩, ⟨.mem, ok 0⟩, ⟨.CreateEvent, er 0 8⟩] := by
    decide +kernel
  have h4 : (anyWaiting ⟨false, false, true⟩ (condWait ⟨false, false, true⟩) 0 [ok 0, ok 0, ok 1, ok 0, ok 1]).log =
      [⟨.pthread_mutex_lock, ok 0⟩, ⟨.userUnlock, ok 0⟩, ⟨.pthread_cond_wait .cv, ok 1⟩, ⟨.pthread_mutex_unlock, ok 0⟩,
        ⟨.userLock, ok 1⟩] := by decide +kernel
  refine ⟨⟨_, ?_, (by decide +kernel : (wcvWait 0 [ok 0, ok 1, ok 0, ok 0x80000000, ok 1]).out = .terminated), ?_⟩,
    ⟨_, ?_, (by decide +kernel :
      (wcvWait 0 [ok 0, ok 1, ok 0, ok 0x80000000, ok 0, er 0xFFFFFFFF 6, ok 0, ok 0, ok 0x80000000, ok 1]).out = .terminated), ?_⟩,
    ⟨_, ?_, (by decide +kernel : (wcvWait 0 [ok 0, ok 1, ok 0, ok 0x80000001, ok 0, ok 0, er 0 8]).out = .terminated), ?_⟩,
    ⟨_, ?_, (by decide +kernel :
      (anyWaiting ⟨false, false, true⟩ (condWait ⟨false, false, true⟩) 0 [ok 0, ok 0, ok 1, ok 0, ok 1]).out = .terminated)⟩⟩
  · rw [h1]; simp
  · rw [h1]; rfl
  · rw [h2]; simp
  · rw [h2]; rfl
  · rw [h3]; simp
  · rw [h3]; rfl
  · rw [h4]; simp

end Verif.Failures
