import Verif.Proof.Waited

/-!
# C94: results say whether the object has been acquired; C95: mutexes and locks are given back

`Fulfils bug extra R m`: for all answers of the operating system that are documented and fulfil `extra`, the calls that `m` makes and the way it
ends fulfil `R` (`Verif.Spec.Failures`, `Verif.Spec.Outcome`).
-/

namespace Verif.Failures

open Verif.OsCall Verif.Spec.Failures Verif.Spec.Outcome Verif.Failures.Trace

/-! ## C94 -/

/-- POSIX mutexes: `lock` returns and `try_lock`, `timed_lock` return `true` if and only if one call has locked the mutex; they return `false` only if the system
said `EBUSY` or `ETIMEDOUT`; with a clock of the user only if it says that the time is over. -/
theorem C94_posix_mutex (c : Cfg) :
    Fulfils c.eintrBug always (Acquired (fun _ => true)) (mutexLock c) ∧
    Fulfils c.eintrBug always (AcquiredOr unavailable) (mutexTryLock c) ∧
    (c.timedlock = true →
      Fulfils c.eintrBug always (Acquired (fun _ => true)) (timedMutexLock c) ∧
      Fulfils c.eintrBug always (AcquiredOr unavailable) (timedMutexTryLock c) ∧
      Fulfils c.eintrBug always (AcquiredOr unavailable) (timedMutexTimedLock c) ∧
      Fulfils c.eintrBug always (AcquiredOr late) (clockLoop false (fun _ => timedMutexTimedLock c))) :=
  ⟨acquired_of_gain (gain_mutexLock c _ _), acquiredOr_of_gain (gain_mutexTryLock c _ _), fun h =>
    ⟨acquired_of_gain (gain_timedMutexLock c _ _ h), acquiredOr_of_gain (gain_timedMutexTryLock c _ _ h),
      acquiredOr_of_gain (gain_timedMutexTimedLock c _ _ unavailable (fun _ h => h) (fun r h => by simp [unavailable, h]) h),
      acquiredOr_of_gain (gain_clockLoop (fun _ => gain_timedMutexTimedLock c _ _ late (fun _ h => by simp [late, h])
        (fun r h => by simp [late, unavailable, expired, h]) h) (fun _ h => by simp [late, h]) false)⟩⟩

/-- The mutex is locked after an interruption; it is busy; the time is over according to the user's clock. -/
example : let c : Cfg := ⟨true, true, true⟩
    (mutexLock c 0 [⟨4, 0⟩, ⟨0, 0⟩]).out = .ret () ∧ (mutexTryLock c 0 [⟨16, 0⟩]).out = .ret false ∧
    (clockLoop false (fun _ => timedMutexTimedLock c) 0 [⟨5, 0⟩, ⟨110, 0⟩, ⟨0, 0⟩]).out = .ret false := by decide +kernel

/-- POSIX semaphores, and events over them.  The first four without any assumption; `wait` in debug builds or if there is neither misuse nor a deadlock; that
`false` means "not available" if `sem_trywait` is not interrupted. -/
theorem C94_posix_semaphore_partial (c : Cfg) :
    Fulfils c.eintrBug always (Acquired id) (semTryWait c) ∧
    Fulfils c.eintrBug always (Acquired id) (semTimedWait c) ∧
    Fulfils c.eintrBug always (Acquired id) (autoSemTimedWait (semTryWait c)) ∧
    Fulfils c.eintrBug always (Acquired id) (autoSemTimedWait (semTimedWait c)) ∧
    Fulfils c.eintrBug (fun x => c.debug = true ∨ usedWell x) (Acquired (fun _ => true)) (semWait c) ∧
    Fulfils c.eintrBug (fun x => c.debug = true ∨ usedWell x) (Acquired (fun _ => true)) (autoSemWait (semWait c)) ∧
    Fulfils c.eintrBug (fun x => (c.debug = true ∨ usedWell x) ∧ notInterrupted x) (AcquiredOr unavailable) (semTryWait c) ∧
    Fulfils c.eintrBug (fun x => c.debug = true ∨ usedWell x) (AcquiredOr unavailable) (semTimedWait c) ∧
    Fulfils c.eintrBug (fun x => c.debug = true ∨ usedWell x) (AcquiredOr late) (clockLoop true (fun _ => semTimedWait c)) :=
  ⟨acquired_of_gain (gain_semTryWait' c _), acquired_of_gain (gain_semTimedWait' c _),
    acquired_of_gain (gain_autoSemTimedWait (gain_semTryWait' c _)), acquired_of_gain (gain_autoSemTimedWait (gain_semTimedWait' c _)),
    acquired_of_gain (gain_semWait c _), acquired_of_gain (gain_autoSemWait (gain_semWait c _)), acquiredOr_of_gain (gain_semTryWait c _),
    acquiredOr_of_gain (gain_semTimedWait c _ _ (fun _ h => h)),
    acquiredOr_of_gain (gain_clockLoop (fun _ => gain_semTimedWait c _ _ (fun _ h => by simp [late, h])) (fun _ h => by simp [late, h]) true)⟩

/-- A wait that is interrupted twice; a timeout. -/
example : let c : Cfg := ⟨false, false, true⟩
    (semWait c 0 [⟨0xFFFFFFFF, 4⟩, ⟨0xFFFFFFFF, 4⟩, ⟨0, 0⟩]).out = .ret () ∧
    (semTimedWait c 0 [⟨0xFFFFFFFF, 4⟩, ⟨0xFFFFFFFF, 110⟩]).out = .ret false := by decide +kernel

/-- With `NDEBUG`, `wait` returns though a deadlock has been detected and nothing has been taken from the semaphore; `try_wait` says "not available" when it has
only been interrupted. -/
theorem C94_posix_semaphore_refuted :
    ¬ Fulfils false always (Acquired (fun _ => true)) (semWait ⟨false, false, true⟩) ∧
    ¬ Fulfils false always (AcquiredOr unavailable) (semTryWait ⟨true, false, true⟩) := by
  constructor
  · intro h
    have h1 := h 0 [⟨0xFFFFFFFF, 35⟩]
    have h2 : (semWait ⟨false, false, true⟩ 0 [⟨0xFFFFFFFF, 35⟩]).out = .ret () := by decide +kernel
    have h3 : (semWait ⟨false, false, true⟩ 0 [⟨0xFFFFFFFF, 35⟩]).log = [⟨.sem_wait, ⟨0xFFFFFFFF, 35⟩⟩] := by decide +kernel
    rw [h2, h3] at h1
    have := h1 (by simp [Documented, always])
    simp [Acquired, acquires] at this
  · intro h
    have h1 := h 0 [⟨0xFFFFFFFF, 4⟩]
    have h2 : (semTryWait ⟨true, false, true⟩ 0 [⟨0xFFFFFFFF, 4⟩]).out = .ret false := rfl
    have h3 : (semTryWait ⟨true, false, true⟩ 0 [⟨0xFFFFFFFF, 4⟩]).log = [⟨.sem_trywait, ⟨0xFFFFFFFF, 4⟩⟩] := rfl
    rw [h2, h3] at h1
    have := h1 (by simp [Documented, always])
    simp [AcquiredOr, acquires, unavailable] at this

/-- Windows: events and semaphores. -/
theorem C94_windows (c : Cfg) (t : Int) :
    Fulfils c.eintrBug always (Acquired (fun _ => true)) eventWait ∧
    Fulfils c.eintrBug always (AcquiredOr unavailable) eventTryWait ∧
    Fulfils c.eintrBug always (AcquiredOr unavailable) (eventTimedRel t) ∧
    Fulfils c.eintrBug always (AcquiredOr unavailable) (eventTimedAbs c) ∧
    Fulfils c.eintrBug always (AcquiredOr late) (clockLoop true eventTimedRel) ∧
    Fulfils c.eintrBug always (Acquired (fun _ => true)) wsemWait ∧
    Fulfils c.eintrBug always (AcquiredOr unavailable) wsemTryWait ∧
    Fulfils c.eintrBug always (AcquiredOr unavailable) (wsemTimedRel t) ∧
    Fulfils c.eintrBug always (AcquiredOr unavailable) (wsemTimedAbs c) ∧
    Fulfils c.eintrBug always (AcquiredOr late) (clockLoop true wsemTimedRel) :=
  ⟨acquired_of_gain (gain_eventWait _), acquiredOr_of_gain (gain_eventTryWait _ _), acquiredOr_of_gain (gain_eventTimedRel _ _ (fun _ h => h) t),
    acquiredOr_of_gain (gain_eventTimedAbs c _ _),
    acquiredOr_of_gain (gain_clockLoop (gain_eventTimedRel _ _ (fun _ h => by simp [late, h])) (fun _ h => by simp [late, h]) true),
    acquired_of_gain (gain_wsemWait _), acquiredOr_of_gain (gain_wsemTryWait _ _), acquiredOr_of_gain (gain_wsemTimedRel _ _ (fun _ h => h) t),
    acquiredOr_of_gain (gain_wsemTimedAbs c _ _),
    acquiredOr_of_gain (gain_clockLoop (gain_wsemTimedRel _ _ (fun _ h => by simp [late, h])) (fun _ h => by simp [late, h]) true)⟩

/-- A wait of more than 0xFFFFFFFE milliseconds succeeds in the second chunk, another one times out. -/
example : (eventTimedRel 5000000000 0 [⟨0x102, 0⟩, ⟨0, 0⟩]).out = .ret true ∧ (eventTimedRel 5000000000 0 [⟨0x102, 0⟩, ⟨0x102, 0⟩]).out = .ret false := by
  decide +kernel

/-- Mach and Dispatch semaphores. -/
theorem C94_macos (bug : Bool) :
    Fulfils bug always (Acquired (fun _ => true)) machWait ∧
    Fulfils bug always (AcquiredOr unavailable) machTimedWait ∧
    Fulfils bug always (AcquiredOr late) (clockLoop false (fun _ => machTimedWait)) ∧
    Fulfils bug always (Acquired (fun _ => true)) (autoSemWait machWait) ∧
    Fulfils bug always (AcquiredOr unavailable) (autoSemTimedWait machTimedWait) ∧
    Fulfils bug untilAcquired (Acquired (fun _ => true)) dispatchWait ∧
    Fulfils bug always (AcquiredOr unavailable) dispatchTimedWait ∧
    Fulfils bug always (AcquiredOr late) (clockLoop true (fun _ => dispatchTimedWait)) ∧
    Fulfils bug untilAcquired (Acquired (fun _ => true)) (autoSemWait dispatchWait) ∧
    Fulfils bug always (AcquiredOr unavailable) (autoSemTimedWait dispatchTimedWait) :=
  ⟨acquired_of_gain (gain_machWait _), acquiredOr_of_gain (gain_machTimedWait _ _ (fun _ h => h)),
    acquiredOr_of_gain (gain_clockLoop (fun _ => gain_machTimedWait _ _ (fun _ h => by simp [late, h])) (fun _ h => by simp [late, h]) false),
    acquired_of_gain (gain_autoSemWait (gain_machWait _)), acquiredOr_of_gain (gain_autoSemTimedWait (gain_machTimedWait _ _ (fun _ h => h))),
    acquired_of_gain (gain_dispatchWait _), acquiredOr_of_gain (gain_dispatchTimedWait _ _ (fun _ h => h)),
    acquiredOr_of_gain (gain_clockLoop (fun _ => gain_dispatchTimedWait _ _ (fun _ h => by simp [late, h])) (fun _ h => by simp [late, h]) true),
    acquired_of_gain (gain_autoSemWait (gain_dispatchWait _)), acquiredOr_of_gain (gain_autoSemTimedWait (gain_dispatchTimedWait _ _ (fun _ h => h)))⟩

/-- An interrupted wait is resumed; an exception after which the semaphore has not been decremented. -/
example : (machWait 0 [⟨14, 0⟩, ⟨0, 0⟩]).out = .ret () ∧ (machWait 0 [⟨14, 0⟩, ⟨37, 0⟩]).out = .threw ⟨.waitError, .invalid_argument⟩ := by
  decide +kernel

/-- Timed locks and timed waits on condition variables fail only after a timeout; with a clock of the user only if it says that the time is over.  (The overloads for
durations of Windows, if the duration is not over already.) -/
theorem C94_timeouts (c : Cfg) (t : Int) (ht : 0 < t) (first : Bool) (rel : Int → M Bool) :
    Fulfils c.eintrBug always (InTime unavailable) (condTimedWait c) ∧
    Fulfils c.eintrBug always (InTime unavailable) (emuTimedWait c) ∧
    Fulfils c.eintrBug always (InTime unavailable) (timedMutexTimedLock c) ∧
    Fulfils c.eintrBug always (InTime unavailable) (wmutexTimedLock wmutexPrivTimedAbs) ∧
    Fulfils c.eintrBug always (InTime unavailable) (wmutexTimedLock (wmutexPrivTimedRel t)) ∧
    Fulfils c.eintrBug always (InTime unavailable) (wcvTimedRel t) ∧
    Fulfils c.eintrBug always (InTime unavailable) wcvTimedAbs ∧
    Fulfils c.eintrBug always (InTime expired) (clockLoop first rel) :=
  ⟨inTime_of_timely (timely_condTimedWait c _), inTime_of_timely (timely_emuTimedWait c _), inTime_of_timely (timely_timedMutexTimedLock c _),
    inTime_of_timely (timely_wmutexTimedLock _ (timely_wmutexPrivTimedAbs _ _)),
    inTime_of_timely (timely_wmutexTimedLock _ (timely_wmutexPrivTimedRel _ t ht)), inTime_of_timely (timely_wcvTimedRel _ t ht),
    inTime_of_timely (timely_wcvTimedAbs _ _), inTime_of_timely (timely_clockLoop _ first)⟩

/-- Timed waits on the condition variable of POSIX report a timeout exactly if the last call of the system has. -/
theorem C94_cond_status (c : Cfg) (first : Bool) :
    Fulfils c.eintrBug always Notified (condTimedWait c) ∧ Fulfils c.eintrBug always Notified (clockLoop first (fun _ => condTimedWait c)) :=
  ⟨notified_of_told (told_condTimedWait c _), notified_of_told (told_clockLoop _ (fun _ => told_condTimedWait c _) first)⟩

/-- A wait that is interrupted once, then notified; with a clock of the user: a timeout that is too early, then a notification. -/
example : (condTimedWait ⟨true, true, true⟩ 0 [⟨4, 0⟩, ⟨0, 0⟩]).out = .ret true ∧
    (clockLoop false (fun _ => condTimedWait ⟨true, true, true⟩) 0 [⟨5, 0⟩, ⟨110, 0⟩, ⟨3, 0⟩, ⟨0, 0⟩]).out = .ret true ∧
    (clockLoop false (fun _ => condTimedWait ⟨true, true, true⟩) 0 [⟨5, 0⟩, ⟨110, 0⟩, ⟨0, 0⟩]).out = .ret false := by decide +kernel

/-- `timed_lock` of a locked mutex whose event exists: a wake-up for another thread, then a timeout. -/
example : (wmutexTimedLock (wmutexPrivTimedRel 10) 0
    [⟨0x80000000, 0⟩, ⟨0, 0⟩, ⟨0x80000000, 0⟩, ⟨1, 0⟩, ⟨0, 0⟩, ⟨0x80000001, 0⟩, ⟨0x102, 0⟩, ⟨0, 0⟩]).out = .ret false := by decide +kernel

/-- Windows: a wait or lock with a duration (in milliseconds) gives up only after calls of the system have waited that long in vain; long durations are waited
for in pieces. -/
theorem C94_full_time (bug : Bool) (t : Int) :
    Fulfils bug always (Waited t) (eventTimedRel t) ∧
    Fulfils bug always (Waited t) (wsemTimedRel t) ∧
    Fulfils bug always (Waited t) (wmutexTimedLock (wmutexPrivTimedRel t)) ∧
    Fulfils bug always (Waited t) (wcvTimedRel t) :=
  ⟨waited_of_patient (patient_eventTimedRel _ t), waited_of_patient (patient_wsemTimedRel _ t), waited_of_patient (patient_wmutexTimedLock _ t),
    waited_of_patient (patient_wcvTimedRel _ t)⟩

/-- 5000000000 ms are waited for in two pieces. -/
example : ((wsemTimedRel 5000000000 0 [⟨0x102, 0⟩, ⟨0x102, 0⟩]).log.map inVain) = [4294967294, 705032706] ∧
    (wsemTimedRel 5000000000 0 [⟨0x102, 0⟩, ⟨0x102, 0⟩]).out = .ret false := by decide +kernel

/-- The emulations and the mutexes of Windows: the result is that of the last look at the shared data, i.e. the flag or count for the emulations, a word without the
lock flag for a mutex of Windows that has been locked. -/
theorem C94_shared_data (c : Cfg) (t : Int) :
    Fulfils c.eintrBug always (Says (fun b v => b = (v != 0))) (emuTryWait c) ∧
    Fulfils c.eintrBug always (Says (fun _ v => v ≠ 0)) (emuWait c) ∧
    Fulfils c.eintrBug always (Says (fun b v => b = (v != 0))) (emuTimedWait c) ∧
    (c.timedlock = false →
      Fulfils c.eintrBug always (Says (fun _ v => v = 0)) (timedMutexLock c) ∧
      Fulfils c.eintrBug always (Says (fun b v => b = (v == 0))) (timedMutexTryLock c) ∧
      Fulfils c.eintrBug always (Says (fun b v => b = (v == 0))) (timedMutexTimedLock c)) ∧
    Fulfils c.eintrBug always (Says (fun b v => b = (v &&& 0x80000000 == 0))) wmutexTryLock ∧
    Fulfils c.eintrBug always (Says (fun _ v => v &&& 0x80000000 = 0)) wmutexLock ∧
    Fulfils c.eintrBug always (Says (fun b v => b = true → v &&& 0x80000000 = 0)) (wmutexTimedLock wmutexPrivTimedAbs) ∧
    Fulfils c.eintrBug always (Says (fun b v => b = true → v &&& 0x80000000 = 0)) (wmutexTimedLock (wmutexPrivTimedRel t)) :=
  ⟨says_of_tells (tells_emuTryWait c _), says_of_tells (tells_emuWait c _), says_of_tells (tells_emuTimedWait c _), fun h =>
    ⟨says_of_tells (tells_timedMutexLock c _ h), says_of_tells (tells_timedMutexTryLock c _ h), says_of_tells (tells_timedMutexTimedLock c _ h)⟩,
    says_of_tells (tells_wmutexTryLock _), says_of_tells (tells_wmutexLock _), says_of_tells (tells_wmutexTimedLock _ (tells_wmutexPrivTimedAbs _)),
    says_of_tells (tells_wmutexTimedLock _ (tells_wmutexPrivTimedRel _ t))⟩

/-- The event is set between the timeout and the return of `pthread_cond_timedwait`; a mutex of Windows is obtained after one wait. -/
example :
    (emuTimedWait ⟨true, false, true⟩ 0 [⟨0, 0⟩, ⟨0, 0⟩, ⟨110, 0⟩, ⟨1, 0⟩, ⟨0, 0⟩]).out = .ret true ∧
    (wmutexLock 0 [⟨0x80000000, 0⟩, ⟨0, 0⟩, ⟨0x80000001, 0⟩, ⟨1, 0⟩, ⟨0, 0⟩, ⟨1, 0⟩]).out = .ret () := by decide +kernel

/-! ## C95 -/

/-- The emulations of events and semaphores and `condition_variable_any`: shared data, the condition variable and `unlock` of the user's lock are used only while
the internal mutex is owned, `lock` of the user's lock only while it is not, and however a function is left, the internal mutex is not owned any more. -/
theorem C95_internal_mutex (c : Cfg) (all : Bool) :
    Fulfils c.eintrBug always Disciplined (emuPost c all) ∧
    Fulfils c.eintrBug always Disciplined (emuTryWait c) ∧
    Fulfils c.eintrBug always Disciplined (emuWait c) ∧
    Fulfils c.eintrBug always Disciplined (emuTimedWait c) ∧
    Fulfils c.eintrBug always Disciplined (anyNotify c all) ∧
    Fulfils c.eintrBug always Disciplined (anyWaiting c (condWait c)) ∧
    Fulfils c.eintrBug always Disciplined (anyWaiting c (condTimedWait c)) :=
  ⟨disciplined_of_w (w_emuPost c _ all), disciplined_of_w (w_emuTryWait c _), disciplined_of_w (w_emuWait c _), disciplined_of_w (w_emuTimedWait c _),
    disciplined_of_w (w_anyNotify c _ all), disciplined_of_w (w_anyWaiting c _ (w_condWait c _)),
    disciplined_of_w (w_anyWaiting c _ (w_condTimedWait c _))⟩

/-- `pthread_cond_wait` fails: the exception leaves `wait` after the mutex has been unlocked and the user's lock has been locked. -/
example : (anyWaiting ⟨true, false, true⟩ (condWait ⟨true, false, true⟩) 0 [⟨0, 0⟩, ⟨0, 0⟩, ⟨22, 0⟩, ⟨0, 0⟩, ⟨0, 0⟩]).out = .threw ⟨.waitError, .os 22⟩ ∧
    (anyWaiting ⟨true, false, true⟩ (condWait ⟨true, false, true⟩) 0 [⟨0, 0⟩, ⟨0, 0⟩, ⟨22, 0⟩, ⟨0, 0⟩, ⟨0, 0⟩]).log.map Call.api =
      [.pthread_mutex_lock, .userUnlock, .pthread_cond_wait .cv, .pthread_mutex_unlock, .userLock] := ⟨rfl, rfl⟩

/-- The timed mutex without `pthread_mutex_timedlock`, in debug builds. -/
theorem C95_emulated_timed_mutex_partial (c : Cfg) (ht : c.timedlock = false) (hd : c.debug = true) :
    Fulfils c.eintrBug always Disciplined (timedMutexLock c) ∧
    Fulfils c.eintrBug always Disciplined (timedMutexTryLock c) ∧
    Fulfils c.eintrBug always Disciplined (timedMutexTimedLock c) ∧
    Fulfils c.eintrBug always Disciplined (timedMutexUnlock c) :=
  ⟨disciplined_of_w (w_timedMutexLock c _ ht hd), disciplined_of_w (w_timedMutexTryLock c _ ht hd), disciplined_of_w (w_timedMutexTimedLock c _ ht hd),
    disciplined_of_w (w_timedMutexUnlock c _ ht hd)⟩

example : (timedMutexLock ⟨true, false, false⟩ 0 [⟨0, 0⟩, ⟨1, 0⟩, ⟨0, 0⟩, ⟨0, 0⟩, ⟨0, 0⟩]).out = .ret () := by decide +kernel

/-- With `NDEBUG` a failed `pthread_mutex_lock` is ignored: `try_lock` reads `m_is_locked` without owning the mutex and returns `true`. -/
theorem C95_emulated_timed_mutex_refuted :
    ¬ Fulfils false always Disciplined (timedMutexTryLock ⟨false, false, false⟩) ∧
    (timedMutexTryLock ⟨false, false, false⟩ 0 [⟨35, 0⟩, ⟨0, 0⟩, ⟨1, 0⟩]).out = .ret true := by
  refine ⟨fun h => ?_, rfl⟩
  have h1 := h 0 [⟨35, 0⟩, ⟨0, 0⟩, ⟨1, 0⟩]
  have h2 : (timedMutexTryLock ⟨false, false, false⟩ 0 [⟨35, 0⟩, ⟨0, 0⟩, ⟨1, 0⟩]).out = .ret true := rfl
  have h3 : (timedMutexTryLock ⟨false, false, false⟩ 0 [⟨35, 0⟩, ⟨0, 0⟩, ⟨1, 0⟩]).log =
      [⟨.pthread_mutex_lock, ⟨35, 0⟩⟩, ⟨.mem, ⟨0, 0⟩⟩, ⟨.pthread_mutex_unlock, ⟨1, 0⟩⟩] := rfl
  rw [h2, h3] at h1
  have := h1 (by simp [Documented, always])
  simp [Disciplined, own] at this

/-- Waits on condition variables (Windows, and `condition_variable_any` in general): the user's lock is unlocked before the thread sleeps and is locked again when the wait
returns; if the wait throws, it is locked as well, or the exception is that of its own `lock` or `unlock`. -/
theorem C95_user_lock (c : Cfg) (t : Int) :
    Fulfils c.eintrBug always (Relocked 1) wcvWait ∧
    Fulfils c.eintrBug always (Relocked 1) (wcvTimedRel t) ∧
    Fulfils c.eintrBug always (Relocked 1) wcvTimedAbs ∧
    Fulfils c.eintrBug always (Relocked 0) (clockLoop false wcvTimedRel) ∧
    Fulfils c.eintrBug always (Relocked 1) (anyWaiting c (condWait c)) ∧
    Fulfils c.eintrBug always (Relocked 1) (anyWaiting c (condTimedWait c)) :=
  ⟨relocked_of_w (fun _ => w_wcvWaiting _ (sleeps_wcvPrivWait _)), relocked_of_w (fun _ => w_wcvWaiting _ (sleeps_wcvPrivTimedRel _ t)),
    relocked_of_w (fun _ => w_wcvTimedAbs _), relocked_of_w (fun _ => w_clockLoop_held _ (fun t _ _ => w_wcvWaiting _ (sleeps_wcvPrivTimedRel _ t))),
    relocked_of_w (fun _ => w_anyWaiting_held _ c (sleeps_condWait _ c)), relocked_of_w (fun _ => w_anyWaiting_held _ c (sleeps_condTimedWait _ c))⟩

/-- `WaitForSingleObject` fails, the user's lock is locked again and the exception leaves `wait`; the user's `lock` throws after a successful wait. -/
example :
    (wcvWait 0 [⟨0, 0⟩, ⟨1, 0⟩, ⟨0, 0⟩, ⟨0, 0⟩, ⟨0, 0⟩, ⟨0xFFFFFFFF, 6⟩, ⟨0, 0⟩, ⟨0, 0⟩, ⟨0, 0⟩, ⟨0, 0⟩]).out = .threw ⟨.waitError, .os 6⟩ ∧
    (wcvWait 0 [⟨0, 0⟩, ⟨1, 0⟩, ⟨0, 0⟩, ⟨0, 0⟩, ⟨0, 0⟩, ⟨0, 0⟩, ⟨0, 0⟩, ⟨1, 0⟩, ⟨0, 0⟩, ⟨7, 0⟩]).out = .threw ⟨.user, .os 7⟩ := by decide +kernel

end Verif.Failures
