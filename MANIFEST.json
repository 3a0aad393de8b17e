{
 "claims": [
  {
   "property": "C01",
   "status": "proved",
   "theorems": [
    "Verif.Spin.C01_spin_mutual_exclusion"
   ],
   "note": "any number of threads"
  },
  {
   "property": "C02",
   "status": "proved",
   "theorems": [
    "Verif.Spin.C02_spin_happens_before",
    "Verif.Spin.C02_items"
   ],
   "note": "release/acquire views"
  },
  {
   "property": "C03",
   "status": "proved",
   "theorems": [
    "Verif.Spin.C03_spin_try_lock_exact",
    "Verif.Spin.C03_spin_lock_succeeds_when_free",
    "Verif.Spin.C03_spin_lock_completes"
   ],
   "note": ""
  },
  {
   "property": "C04",
   "status": "proved",
   "theorems": [
    "Verif.SharedSpin.C04_shared_spin_exclusion"
   ],
   "note": "any number of threads"
  },
  {
   "property": "C05",
   "status": "proved",
   "theorems": [
    "Verif.SharedSpin.C05_try_lock_exact",
    "Verif.SharedSpin.C05_lock_succeeds_when_free",
    "Verif.SharedSpin.C05_lock_completes",
    "Verif.SharedSpin.C05_lock_shared_completes"
   ],
   "note": ""
  },
  {
   "property": "C06",
   "status": "proved",
   "theorems": [
    "Verif.SharedSpin.C06_shared_capacity",
    "Verif.SharedSpin.C06_capacity_sharp"
   ],
   "note": ""
  },
  {
   "property": "C07",
   "status": "proved",
   "theorems": [
    "Verif.SharedSpin.C07_exclusive_sees_all",
    "Verif.SharedSpin.C07_shared_sees_exclusive",
    "Verif.SharedSpin.C07_items"
   ],
   "note": ""
  },
  {
   "property": "C08",
   "status": "partial",
   "theorems": [
    "Verif.SharedSpin.C08_try_lock_shared_refuted",
    "Verif.SharedSpin.C08_try_lock_shared_partial"
   ],
   "note": "the documented claim is false of the code (compare-exchange lost to another reader or spurious failure); refutation proved, and the claim proved for an undisturbed call"
  },
  {
   "property": "C09",
   "status": "proved",
   "theorems": [
    "Verif.WinMutex.C09_win_mutual_exclusion"
   ],
   "note": "fewer than 2^30 threads"
  },
  {
   "property": "C10",
   "status": "proved",
   "theorems": [
    "Verif.WinMutex.C10_no_lost_wakeup",
    "Verif.WinMutex.C10_progress",
    "Verif.WinMutex.C10_call_completes"
   ],
   "note": "fewer than 2^30 threads"
  },
  {
   "property": "C100",
   "status": "partial",
   "theorems": [
    "Verif.Config.C100_diagnostics_partial",
    "Verif.Config.C100_diagnostics_refuted"
   ],
   "note": "False with compilers by Intel that are like GCC 4.6: header.hpp does not save, footer.hpp restores. Proved for all others."
  },
  {
   "property": "C101",
   "status": "proved",
   "theorems": [
    "Verif.Config.C101_constexpr_macro",
    "Verif.Config.C101_constexpr_members",
    "Verif.Config.C101_native_handle_macro",
    "Verif.Config.C101_compatible_mutex",
    "Verif.Config.C101_tls"
   ],
   "note": ""
  },
  {
   "property": "C102",
   "status": "partial",
   "theorems": [
    "Verif.Config.C102_one_tss",
    "Verif.Config.C102_one_storage",
    "Verif.Config.C102_hook_partial",
    "Verif.Config.C102_hook_refuted",
    "Verif.Config.C102_api",
    "Verif.Config.C102_auto_link"
   ],
   "note": "False: with BOOST_ALL_DYN_LINK only, the symbols are exported but tss_windows_dll.cpp is empty. Proved for the macros that the Jamfile defines."
  },
  {
   "property": "C103",
   "status": "partial",
   "theorems": [
    "Verif.Config.C103_lock_free_partial",
    "Verif.Config.C103_dead_code",
    "Verif.Config.C103_lock_free_refuted"
   ],
   "note": "False: the header asks for ATOMIC_BOOL_LOCKFREE instead of ATOMIC_BOOL_LOCK_FREE. Proved where somebody defines the misspelled macros."
  },
  {
   "property": "C104",
   "status": "proved",
   "theorems": [
    "Verif.ManualFutexOrder.C104_success",
    "Verif.ManualFutexOrder.C104_fails",
    "Verif.ManualFutexOrder.C104_informed_success",
    "Verif.ManualFutexOrder.C104_informed_fails",
    "Verif.ManualFutexOrder.C104_no_lost_wakeup",
    "Verif.ManualFutexOrder.C104_covers"
   ],
   "note": ""
  },
  {
   "property": "C105",
   "status": "partial",
   "theorems": [
    "Verif.MonitorOrder.C105_emulation",
    "Verif.MonitorOrder.C105_emulation_update",
    "Verif.ManualFutexOrder.C105_futex_refuted",
    "Verif.ManualFutexOrder.C105_futex_later_partial",
    "Verif.MonitorOrder.C105_items",
    "Verif.MonitorOrder.C105_covers"
   ],
   "note": "Proved for the emulations. False for the event on futexes: reset() is a relaxed operation, so what was done before the set() it cancels is not known until a later wait of the thread succeeds."
  },
  {
   "property": "C106",
   "status": "proved",
   "theorems": [
    "Verif.WinCvOrder.C106_skip",
    "Verif.WinCvOrder.C106_informed",
    "Verif.WinCvOrder.C106_user_lock",
    "Verif.WinCvOrder.C106_grants",
    "Verif.WinCvOrder.C106_inside",
    "Verif.WinCvOrder.C106_no_lost_wakeup",
    "Verif.WinCvOrder.C106_total_count",
    "Verif.WinCvOrder.C106_covers"
   ],
   "note": ""
  },
  {
   "property": "C107",
   "status": "partial",
   "theorems": [
    "Verif.ErrCode.C107_boost",
    "Verif.ErrCode.C107_std_partial",
    "Verif.ErrCode.C107_std_sites",
    "Verif.ErrCode.C107_std_refuted",
    "Verif.ErrCode.C107_condition_partial",
    "Verif.ErrCode.C107_condition_refuted",
    "Verif.ErrCode.C107_lock_objects"
   ],
   "note": "Proved with Boost.System where system error values are errno values. False with BOOST_SYNC_USE_STD_SYSTEM_ERROR: std::errc does not convert to int, so the lock objects and the waits of the Mach semaphore do not compile (only resource_error has a constructor for it). False on Windows: the constants of errc are put into system_category, where they mean other errors."
  },
  {
   "property": "C108",
   "status": "partial",
   "theorems": [
    "Verif.TimePoint.C108_posix_partial",
    "Verif.TimePoint.C108_posix_exact",
    "Verif.TimePoint.C108_posix_refuted",
    "Verif.TimePoint.C108_windows_partial",
    "Verif.TimePoint.C108_windows_early_refuted",
    "Verif.TimePoint.C108_windows_refuted"
   ],
   "note": "Proved on POSIX from 1970 on, on Windows between 1601 and the year 30800 up to a millisecond. False on POSIX for chrono and date_time time points before 1970, which become times after 2262; false on Windows for time points before 1601, which become durations, and for fractions of a millisecond, which are cut off so that the timeout comes early. So waiting until time_point::min() blocks."
  },
  {
   "property": "C109",
   "status": "partial",
   "theorems": [
    "Verif.Instantiate.C109_exact",
    "Verif.Instantiate.C109_accepts_partial",
    "Verif.Instantiate.C109_clocks_partial",
    "Verif.Instantiate.C109_refuses",
    "Verif.Instantiate.C109_absent",
    "Verif.Instantiate.C109_coarse_refuted",
    "Verif.Instantiate.C109_manual_refuted"
   ],
   "note": "Proved for durations and time points of system_clock, Boost.DateTime and timespec, and for other clocks where the time point is as fine as the clock. False for coarser time points of other clocks (the body converts clock::now() to the user's time point) with every class, and for all time points of other clocks with manual_reset_event on futexes."
  },
  {
   "property": "C11",
   "status": "proved",
   "theorems": [
    "Verif.WinMutex.C11_event_not_set_twice",
    "Verif.WinMutex.C11_one_thread_released"
   ],
   "note": "fewer than 2^30 threads"
  },
  {
   "property": "C110",
   "status": "partial",
   "theorems": [
    "Verif.LockMembers.C110_exact",
    "Verif.LockMembers.C110_usable_partial",
    "Verif.LockMembers.C110_conversions_refuted",
    "Verif.LockMembers.C110_absent",
    "Verif.LockMembers.C110_library_upgrade",
    "Verif.LockMembers.C110_library"
   ],
   "note": "Proved for all members but the four conversions (constructors and assignments) that always succeed; these read private members of another class and do not compile with any mutex."
  },
  {
   "property": "C111",
   "status": "proved",
   "theorems": [
    "Verif.Spin.C111_returns",
    "Verif.Spin.C111_lock",
    "Verif.SharedSpin.C111_returns",
    "Verif.SharedSpin.C111_lock",
    "Verif.SharedSpin.C111_lock_shared",
    "Verif.WinMutex.C111_returns",
    "Verif.WinMutex.C111_enters",
    "Verif.WinMutex.C111_free",
    "Verif.AutoFutex.C111_returns",
    "Verif.AutoFutex.C111_enters",
    "Verif.ManualFutex.C111_returns",
    "Verif.ManualFutex.C111_enters",
    "Verif.AutoSem.C111_returns",
    "Verif.AutoSem.C111_enters",
    "Verif.WinEvent.C111_returns"
   ],
   "note": "Weak compare-exchanges do not fail spuriously and waits of the system do not end for no reason while the thread runs alone. Classes that use locks (Monitor, condition variables) are not included: there a suspended owner of the internal mutex does hinder others; see C112."
  },
  {
   "property": "C112",
   "status": "proved",
   "theorems": [
    "Verif.Monitor.C112_held",
    "Verif.Monitor.C112_call",
    "Verif.Monitor.C112_inside",
    "Verif.CvAny.C112_held",
    "Verif.CvAny.C112_call",
    "Verif.CvAny.C112_inside",
    "Verif.CondVarPosix.C112_call",
    "Verif.CondVarPosix.C112_inside",
    "Verif.WinCv.C112_held",
    "Verif.WinCv.C112_call",
    "Verif.WinCv.C112_inside"
   ],
   "note": "All choices of the environment are allowed: operations of the system may fail. A wait of condition_variable_any that cannot lock the user's lock again ends the process, which counts as an end."
  },
  {
   "property": "C113",
   "status": "partial",
   "theorems": [
    "Verif.WinCvFail.C113_user_lock",
    "Verif.WinCvFail.C113_internal_mutex",
    "Verif.WinCvFail.C113_count_partial",
    "Verif.WinCvFail.C113_count_refuted",
    "Verif.WinCvFail.C113_lost_notification_refuted"
   ],
   "note": "The last part is false: a wait whose internal mutex cannot be locked after the wait of the system is never removed from the counters; a later notify_one can be given to it while a thread waits. Proved: the number is too high by exactly the number of these failures; other failures do no harm. Simplification: the internal mutex may fail at any time, not only after it was found locked (in the counterexample it is locked)."
  },
  {
   "property": "C114",
   "status": "partial",
   "theorems": [
    "Verif.Spin.C114_lock_refuted",
    "Verif.Spin.C114_lock_partial",
    "Verif.SharedSpin.C114_lock_refuted",
    "Verif.SharedSpin.C114_lock_shared_refuted",
    "Verif.SharedSpin.C114_readers_refuted",
    "Verif.SharedSpin.C114_lock_partial",
    "Verif.SharedSpin.C114_lock_shared_partial",
    "Verif.WinMutex.C114_lock_refuted",
    "Verif.WinMutex.C114_lock_partial",
    "Verif.AutoFutex.C114_wait_refuted",
    "Verif.AutoFutex.C114_wait_partial",
    "Verif.ManualFutex.C114_wait_refuted",
    "Verif.ManualFutex.C114_wait_partial",
    "Verif.AutoSem.C114_event_refuted",
    "Verif.AutoSem.C114_event_partial",
    "Verif.AutoSem.C114_event_calm_partial",
    "Verif.Monitor.C114_auto_event_refuted",
    "Verif.Monitor.C114_auto_event_partial",
    "Verif.Monitor.C114_semaphore_refuted",
    "Verif.Monitor.C114_semaphore_partial",
    "Verif.Monitor.C114_semaphore_calm_partial",
    "Verif.Monitor.C114_timed_mutex_refuted",
    "Verif.Monitor.C114_timed_mutex_partial",
    "Verif.Monitor.C114_manual_event_refuted",
    "Verif.Monitor.C114_manual_event_mutex_refuted",
    "Verif.Monitor.C114_manual_event_partial"
   ],
   "note": "False for all components: for each there is an execution without end in which another thread is served again and again and one thread never. Proved: lock() and lock_shared() of the spin mutexes return if the mutex is free again and again and others take it only finitely often; lock() of the mutex of Windows returns if nobody begins to lock it any more and nobody keeps it for ever; wait() of auto_reset_event (futex) returns if nobody begins to wait any more and post() is called again and again; wait() of manual_reset_event (futex) returns if the event is set and not reset afterwards, and so does that of the emulation if its mutex passes over nobody for ever; under the same condition the waits of the other emulations return if nobody else succeeds any more and the object is ready once, those of the semaphore also if the count stays positive; wait() of auto_reset_event over a semaphore returns if post() returns again and again and the semaphore passes over nobody for ever, or else the waits of others succeed only finitely often. Not stated for components that are calls of the system."
  },
  {
   "property": "C115",
   "status": "partial",
   "theorems": [
    "Verif.CvAny.C115_notify_returns",
    "Verif.CvAny.C115_woken_returns",
    "Verif.CvAny.C115_notify_all_partial",
    "Verif.CvAny.C115_notify_all_refuted",
    "Verif.WinCv.C115_notify_returns",
    "Verif.WinCv.C115_woken_returns",
    "Verif.WinCv.C115_notify_all",
    "Verif.CondVarPosix.C115_woken_returns",
    "Verif.CondVarPosix.C115_notify_all_partial",
    "Verif.CondVarPosix.C115_notify_all_refuted_user_clock",
    "Verif.CondVarPosix.C115_notify_all_refuted_interrupted"
   ],
   "note": "The last part is false for waits until a time point of a clock of the user: notify_all can take effect again and again each time such a wait has been woken to look at that clock, and it goes to sleep again; and, for pthreads, where interrupted waits are repeated. Proved for all other waits of condition_variable_any and of condition_variable for pthreads, and for the condition variable of Windows (at most 2^30 threads) for all waits counted as waiters when notify_all is called."
  },
  {
   "property": "C116",
   "status": "partial",
   "theorems": [
    "Verif.TimerInit.C116_init_ends",
    "Verif.TimerInit.C116_call_partial",
    "Verif.TimerInit.C116_call_refuted",
    "Verif.TssOnce.C116_call_ends",
    "Verif.TssOnce.C116_init_ends",
    "Verif.WinGetEvent.C116_call_ends"
   ],
   "note": "False for get_waitable_timer while the initialisation fails again and again: a thread that finds it in progress whenever it looks waits for ever, although every attempt ends. C116_call_partial shows the rest: it ends if initialisations of the module do not fail again and again. Holds for init_tss_once and get_event."
  },
  {
   "property": "C117",
   "status": "proved",
   "theorems": [
    "Verif.CvAny.C117_timed_wait",
    "Verif.CondVarPosix.C117_timed_wait",
    "Verif.WinCv.C117_timed_wait"
   ],
   "note": "Under strong fairness and with time passing (Timely); time points of a user's own clock are the subject of C120."
  },
  {
   "property": "C118",
   "status": "proved",
   "theorems": [
    "Verif.Monitor.C118_timed_wait",
    "Verif.AutoSem.C118_timed_wait",
    "Verif.ManualFutex.C118_timed_wait"
   ],
   "note": "The emulations (any component of the shape of Mon, with interrupted waits and clocks of the user) need strong fairness for the mutex; the other two only weak fairness."
  },
  {
   "property": "C119",
   "status": "partial",
   "theorems": [
    "Verif.AutoFutex.C119_timed_wait_refuted",
    "Verif.AutoFutex.C119_timed_wait_partial",
    "Verif.WinMutex.C119_timed_lock_refuted",
    "Verif.WinMutex.C119_timed_lock_partial"
   ],
   "note": "False: while another thread posts and takes the post (or locks and unlocks) again and again, the loop of compare-exchanges can find the word changed each time, after the time limit too. The partial theorems show the rest: the call ends if from some time on others leave the word alone."
  },
  {
   "property": "C12",
   "status": "proved",
   "theorems": [
    "Verif.WinMutex.C12_failure_leaves_no_trace",
    "Verif.WinMutex.C12_quiescent",
    "Verif.WinMutex.C12_no_early_failure",
    "Verif.WinMutex.C12_return_values"
   ],
   "note": "fewer than 2^30 threads"
  },
  {
   "property": "C120",
   "status": "proved",
   "theorems": [
    "Verif.CvAny.C120_clocked_wait",
    "Verif.CondVarPosix.C120_clocked_wait",
    "Verif.CvAny.C120_stopped_clock",
    "Verif.CondVarPosix.C120_stopped_clock"
   ],
   "note": "Under strong fairness, with sleeps that end (Timely) and a clock that reaches the time point (Reaches); the stopped_clock theorems show that the last condition cannot be left out."
  },
  {
   "property": "C121",
   "status": "proved",
   "theorems": [
    "Verif.LocksThrow.C121_accounting",
    "Verif.LocksThrow.C121_none_lost",
    "Verif.LocksThrow.C121_terminated_only",
    "Verif.LocksThrow.C121_terminated",
    "Verif.LocksThrow.C121_lost_before_cpp11",
    "Verif.LocksThrow.C121_no_null_dereference"
   ],
   "note": "An unlocking function that throws is assumed to leave the mutex locked."
  },
  {
   "property": "C122",
   "status": "proved",
   "theorems": [
    "Verif.GuardsThrow.C122_cut_short",
    "Verif.GuardsThrow.C122_balanced",
    "Verif.GuardsThrow.C122_terminates",
    "Verif.GuardsThrow.C122_otherwise_same"
   ],
   "note": "Rules of C++11; C122_balanced is for programs without unlock_guards of plain mutexes, as C57_balanced_locks."
  },
  {
   "property": "C13",
   "status": "partial",
   "theorems": [
    "Verif.WinMutex.C13_refuted",
    "Verif.WinMutex.C13_refuted_woken",
    "Verif.WinMutex.C13_happens_before_partial",
    "Verif.WinMutex.C13_items"
   ],
   "note": "false in the C++ memory model for contended acquisitions (relaxed compare-exchange), refuted twice; proved for acquisitions by the first attempt"
  },
  {
   "property": "C14",
   "status": "proved",
   "theorems": [
    "Verif.Monitor.C14_mutual_exclusion",
    "Verif.Monitor.C14_refines_lock"
   ],
   "note": "users call unlock only while owning the mutex; conditions on the OS primitives in Model/Monitor"
  },
  {
   "property": "C15",
   "status": "proved",
   "theorems": [
    "Verif.Monitor.C15_no_lost_wakeup",
    "Verif.Monitor.C15_progress"
   ],
   "note": "For platforms without the workaround for interrupted pthread calls; with it see C76."
  },
  {
   "property": "C16",
   "status": "proved",
   "theorems": [
    "Verif.Monitor.C16_timed_failure",
    "Verif.Monitor.C16_try_failure"
   ],
   "note": ""
  },
  {
   "property": "C17",
   "status": "proved",
   "theorems": [
    "Verif.AutoFutex.C17_one_release_per_post"
   ],
   "note": "up to 1023 threads as stated"
  },
  {
   "property": "C18",
   "status": "proved",
   "theorems": [
    "Verif.AutoFutex.C18_no_lost_wakeup",
    "Verif.AutoFutex.C18_every_post_is_carried",
    "Verif.AutoFutex.C18_quiescent",
    "Verif.AutoFutex.C18_post_takes_effect",
    "Verif.AutoFutex.C18_carrier_returns"
   ],
   "note": "up to 1023 threads as stated"
  },
  {
   "property": "C19",
   "status": "proved",
   "theorems": [
    "Verif.AutoFutex.C19_remembers_one_post"
   ],
   "note": "up to 1023 threads as stated"
  },
  {
   "property": "C20",
   "status": "proved",
   "theorems": [
    "Verif.AutoFutex.C20_failed_wait_consumes_nothing",
    "Verif.AutoFutex.C20_timeout_takes_available_post",
    "Verif.AutoFutex.C20_no_failure_while_signalled",
    "Verif.AutoFutex.C20_no_early_failure"
   ],
   "note": "up to 1023 threads as stated"
  },
  {
   "property": "C21",
   "status": "partial",
   "theorems": [
    "Verif.AutoFutex.C21_refuted",
    "Verif.AutoFutex.C21_all_released_partial"
   ],
   "note": "false for 1024 or more blocked threads (ten-bit counter wraps), proved below"
  },
  {
   "property": "C22",
   "status": "partial",
   "theorems": [
    "Verif.AutoFutex.C22_refuted",
    "Verif.AutoFutex.C22_effective_post_publishes_partial",
    "Verif.AutoFutex.C22_items"
   ],
   "note": "false when the event is already signalled (fence without store); proved for posts that change the word"
  },
  {
   "property": "C23",
   "status": "partial",
   "theorems": [
    "Verif.AutoFutex.C23_refuted",
    "Verif.AutoFutex.C23_counter_partial"
   ],
   "note": "a concrete non-linearizable history; the exact counter law is proved instead"
  },
  {
   "property": "C24",
   "status": "proved",
   "theorems": [
    "Verif.AutoSem.C24_at_most_one_per_post",
    "Verif.AutoSem.C24_state_range",
    "Verif.AutoSem.C24_failure_justified"
   ],
   "note": ""
  },
  {
   "property": "C25",
   "status": "proved",
   "theorems": [
    "Verif.AutoSem.C25_no_lost_wakeup",
    "Verif.AutoSem.C25_post_not_swallowed",
    "Verif.AutoSem.C25_quiescent",
    "Verif.AutoSem.C25_runs_end",
    "Verif.AutoSem.C25_post_remembered"
   ],
   "note": ""
  },
  {
   "property": "C26",
   "status": "partial",
   "theorems": [
    "Verif.AutoSem.C26_refuted",
    "Verif.AutoSem.C26_remembers_partial",
    "Verif.AutoSem.C26_at_most_one_partial"
   ],
   "note": "false when try_wait/timed_wait fail concurrently with posts: both posts are remembered; proved with the number of failed waits added to the bound"
  },
  {
   "property": "C27",
   "status": "partial",
   "theorems": [
    "Verif.Monitor.C27_refines_event",
    "Verif.Monitor.C27_no_lost_wakeup_partial",
    "Verif.Monitor.C27_progress_partial",
    "Verif.Monitor.C27_refuted"
   ],
   "note": "The refinement holds for all executions. The wake-up part is false when a timed wait uses a clock that runs behind the system clock (C27_refuted); it is proved for executions without such clocks."
  },
  {
   "property": "C28",
   "status": "partial",
   "theorems": [
    "Verif.Monitor.C28_refines_flag",
    "Verif.Monitor.C28_observed",
    "Verif.Monitor.C28_no_lost_wakeup_partial",
    "Verif.Monitor.C28_progress_partial",
    "Verif.Monitor.C28_refuted"
   ],
   "note": "As C27: observation holds for all executions, wake-ups without user clocks."
  },
  {
   "property": "C29",
   "status": "proved",
   "theorems": [
    "Verif.ManualFutex.C29_no_lost_wakeup",
    "Verif.ManualFutex.C29_set_releases_all",
    "Verif.ManualFutex.C29_waiter_returns"
   ],
   "note": "fewer than 2^31 threads as stated"
  },
  {
   "property": "C30",
   "status": "proved",
   "theorems": [
    "Verif.ManualFutex.C30_success_implies_set",
    "Verif.ManualFutex.C30_word_exact",
    "Verif.ManualFutex.C30_try_wait_exact",
    "Verif.ManualFutex.C30_no_early_failure",
    "Verif.ManualFutex.C30_wait_on_set_event"
   ],
   "note": "fewer than 2^31 threads as stated"
  },
  {
   "property": "C31",
   "status": "proved",
   "theorems": [
    "Verif.ManualFutex.C31_set_publishes",
    "Verif.ManualFutex.C31_items"
   ],
   "note": "any number of threads"
  },
  {
   "property": "C32",
   "status": "partial",
   "theorems": [
    "Verif.OsSem.C32_os_conservation",
    "Verif.OsSem.C32_os_never_negative",
    "Verif.Monitor.C32_emulation_refines_counter_partial",
    "Verif.Monitor.C32_emulation_conservation_partial",
    "Verif.Monitor.C32_emulation_never_negative_partial",
    "Verif.Monitor.C32_emulation_refuted",
    "Verif.OsSem.C32_os_results",
    "Verif.OsSem.C32_os_success_possible",
    "Verif.OsSem.C32_os_failures",
    "Verif.OsSem.C32_os_failure_possible"
   ],
   "note": "Proved for POSIX, Windows, libdispatch and Mach. The emulation's counter wraps at 2^32 (C32_emulation_refuted), above the limit up to which the documentation promises support; proved there as long as initial count and posts stay below 2^32."
  },
  {
   "property": "C33",
   "status": "partial",
   "theorems": [
    "Verif.Monitor.C33_no_lost_wakeup_partial",
    "Verif.Monitor.C33_progress_partial",
    "Verif.Monitor.C33_refuted"
   ],
   "note": "False when a timed wait with a clock that runs behind the system clock swallows the notification; proved for executions without such clocks."
  },
  {
   "property": "C34",
   "status": "proved",
   "theorems": [
    "Verif.WinCv.C34_total_count",
    "Verif.WinCv.C34_node_counts"
   ],
   "note": "Holds in every reachable state, also inside critical sections."
  },
  {
   "property": "C35",
   "status": "proved",
   "theorems": [
    "Verif.WinCv.C35_no_lost_wakeup",
    "Verif.WinCv.C35_runs_end",
    "Verif.WinCv.C35_quiescent"
   ],
   "note": "With at most 2^30 threads (see C97). A wait whose OS call fails may consume a unit; it then throws (see C37_return_units)."
  },
  {
   "property": "C36",
   "status": "proved",
   "theorems": [
    "Verif.WinCv.C36_no_stealing"
   ],
   "note": ""
  },
  {
   "property": "C37",
   "status": "proved",
   "theorems": [
    "Verif.WinCv.C37_units_conserved",
    "Verif.WinCv.C37_return_units",
    "Verif.WinCv.C37_notify_grants",
    "Verif.WinCv.C37_notify_skip",
    "Verif.WinCv.C37_units_issued",
    "Verif.WinCv.C37_loop_ends",
    "Verif.WinCv.C37_wait_results"
   ],
   "note": ""
  },
  {
   "property": "C38",
   "status": "proved",
   "theorems": [
    "Verif.WinCv.C38_lock_held",
    "Verif.WinCv.C38_unlock_once",
    "Verif.WinCv.C38_lock_during",
    "Verif.WinCv.C38_failure_keeps_state",
    "Verif.WinCv.C34_total_count"
   ],
   "note": "Locking the user lock again and locking the internal mutex are assumed not to throw; see C113."
  },
  {
   "property": "C39",
   "status": "partial",
   "theorems": [
    "Verif.CvAny.C39_refuted",
    "Verif.CvAny.C39_no_lost_notification_partial",
    "Verif.CvAny.C39_wakes_sleepers",
    "Verif.CvAny.C39_notify_result"
   ],
   "note": "False for waits with a clock that runs behind the system clock: a notification between an early time-out and the next OS wait is lost; proved for executions without such waits."
  },
  {
   "property": "C40",
   "status": "proved",
   "theorems": [
    "Verif.CvAny.C40_lock_held",
    "Verif.CvAny.C40_exclusive",
    "Verif.CvAny.C40_internal_released",
    "Verif.CvAny.C40_no_deadlock",
    "Verif.CvAny.C40_runs_end",
    "Verif.CvAny.C40_wait_results"
   ],
   "note": "Locking, unlocking, waiting and locking the user's lock again may throw."
  },
  {
   "property": "C41",
   "status": "proved",
   "theorems": [
    "Verif.PredLoop.C41_returns_last_predicate",
    "Verif.PredLoop.C41_false_after_timeout",
    "Verif.PredLoop.C41_untimed_true",
    "Verif.PredLoop.C41_true_ends",
    "Verif.PredLoop.C41_waits_when_false",
    "Verif.PredLoop.C41_exceptions"
   ],
   "note": ""
  },
  {
   "property": "C42",
   "status": "partial",
   "theorems": [
    "Verif.PredLoop.C42_refuted",
    "Verif.PredLoop.C42_one_timeout_partial",
    "Verif.PredLoop.C42_absolute"
   ],
   "note": "False for the generic condition_variable_any, which starts the duration anew in each round; proved for the other implementations."
  },
  {
   "property": "C43",
   "status": "partial",
   "theorems": [
    "Verif.Time.C43_add_exact_partial",
    "Verif.Time.C43_sub_exact_partial",
    "Verif.Time.C43_of_duration_partial",
    "Verif.Time.C43_refuted",
    "Verif.Time.C43_of_duration_refuted",
    "Verif.Time.C43_overflow_refuted"
   ],
   "note": "False for negative durations exceeding the nanoseconds of the time point (the result is 2^64 ns late) and at the overflow of the nanoseconds; exact otherwise."
  },
  {
   "property": "C44",
   "status": "partial",
   "theorems": [
    "Verif.Time.C44_difference_exact",
    "Verif.Time.C44_inverse_partial",
    "Verif.Time.C44_refuted"
   ],
   "note": "The difference is exact; adding it back fails for negative differences as in C43."
  },
  {
   "property": "C45",
   "status": "partial",
   "theorems": [
    "Verif.UserClock.C45_user_clock_positive",
    "Verif.UserClock.C45_user_clock_refuted",
    "Verif.Time.C45_no_blocking_partial",
    "Verif.Time.C45_refuted"
   ],
   "note": "False on POSIX: a timeout more negative than the nanoseconds of the current time waits at least 292 years. Proved for the other implementations and for the remaining POSIX cases."
  },
  {
   "property": "C46",
   "status": "proved",
   "theorems": [
    "Verif.Time.C46_add_exact",
    "Verif.Time.C46_sub_exact",
    "Verif.Time.C46_add_in_range",
    "Verif.Time.C46_epoch",
    "Verif.Time.C46_time_t",
    "Verif.Time.C46_difference"
   ],
   "note": ""
  },
  {
   "property": "C47",
   "status": "partial",
   "theorems": [
    "Verif.Time.C47_chrono_truncates",
    "Verif.Time.C47_chrono_exact",
    "Verif.Time.C47_chrono_monotone",
    "Verif.Time.C47_date_time_truncates_partial",
    "Verif.Time.C47_date_time_monotone",
    "Verif.Time.C47_date_time_refuted",
    "Verif.Time.C47_timespec"
   ],
   "note": "Proved for chrono with every tick period. For date_time only when the resolution divides the unit or vice versa (C47_date_time_refuted otherwise)."
  },
  {
   "property": "C48",
   "status": "proved",
   "theorems": [
    "Verif.UserClock.C48_timeout_only_after_deadline",
    "Verif.UserClock.C48_success_only_from_primitive",
    "Verif.UserClock.C48_success_returned",
    "Verif.UserClock.C48_course",
    "Verif.UserClock.C48_expired_returns"
   ],
   "note": ""
  },
  {
   "property": "C49",
   "status": "partial",
   "theorems": [
    "Verif.UserClock.C49_available_acquired_partial",
    "Verif.UserClock.C49_tries_partial",
    "Verif.UserClock.C49_refuted"
   ],
   "note": "False for the Mach semaphore, which does not try when the deadline has passed; proved for the others."
  },
  {
   "property": "C50",
   "status": "proved",
   "theorems": [
    "Verif.WaitLoop.C50_chunks_finite",
    "Verif.WaitLoop.C50_chunks_add_up",
    "Verif.WaitLoop.C50_never_more",
    "Verif.WaitLoop.C50_terminates",
    "Verif.WaitLoop.C50_non_positive_no_wait",
    "Verif.WaitLoop.C50_non_positive_polls"
   ],
   "note": ""
  },
  {
   "property": "C51",
   "status": "partial",
   "theorems": [
    "Verif.WaitLoop.C51_bounded_partial",
    "Verif.WaitLoop.C51_per_wakeup_partial",
    "Verif.WaitLoop.C51_refuted"
   ],
   "note": "False for the futex events, the emulations and the Windows mutex and condition variable, which restart the timeout after each wake-up; proved for the others."
  },
  {
   "property": "C52",
   "status": "proved",
   "theorems": [
    "Verif.Time.C52_futex_timeout"
   ],
   "note": ""
  },
  {
   "property": "C53",
   "status": "proved",
   "theorems": [
    "Verif.Locks.C53_accounting",
    "Verif.Locks.C53_owner_really_owns",
    "Verif.Locks.C53_never_negative",
    "Verif.Locks.C53_all_released",
    "Verif.Locks.C53_released_only_by_owner",
    "Verif.Locks.C53_no_null_dereference",
    "Verif.Locks.C53_others_unchanged",
    "Verif.Locks.C53_try_result",
    "Verif.Locks.C53_lock_result",
    "Verif.Locks.C53_unlock_result",
    "Verif.Locks.C53_observers",
    "Verif.Locks.C53_release_result",
    "Verif.Locks.C53_swap_result",
    "Verif.Locks.C53_move_result",
    "Verif.Locks.C53_ctor_result"
   ],
   "note": ""
  },
  {
   "property": "C54",
   "status": "proved",
   "theorems": [
    "Verif.Locks.C54_misuse_throws",
    "Verif.Locks.C54_throw_changes_nothing",
    "Verif.Locks.C54_error_means_misuse"
   ],
   "note": ""
  },
  {
   "property": "C55",
   "status": "proved",
   "theorems": [
    "Verif.Locks.C55_accounting",
    "Verif.Locks.C53_owner_really_owns",
    "Verif.Locks.C53_never_negative",
    "Verif.Locks.C53_all_released",
    "Verif.Locks.C53_released_only_by_owner"
   ],
   "note": ""
  },
  {
   "property": "C56",
   "status": "proved",
   "theorems": [
    "Verif.Locks.C56_conversion",
    "Verif.Locks.C56_assignment",
    "Verif.Locks.C56_plain_never_fails"
   ],
   "note": ""
  },
  {
   "property": "C57",
   "status": "partial",
   "theorems": [
    "Verif.Guards.C57_balanced_partial",
    "Verif.Guards.C57_promise_partial",
    "Verif.Guards.C57_no_wrong_unlock_partial",
    "Verif.Guards.C57_balanced_locks",
    "Verif.Guards.C57_refuted"
   ],
   "note": "False when locking again in the destructor of an unlock_guard for a mutex throws (C57_refuted). Proved for every program in which this does not happen, and without conditions when unlock_guards are used with unique_locks only."
  },
  {
   "property": "C58",
   "status": "partial",
   "theorems": [
    "Verif.Tss.C58_partial",
    "Verif.Tss.C58_never_wrong",
    "Verif.Tss.C58_refuted",
    "Verif.Tss.C58_reset_get",
    "Verif.Tss.C58_release_get"
   ],
   "note": "Proved for all threads that have not begun to exit and, on Windows, for exit callbacks. In exit callbacks on POSIX and in cleanup functions get() may return null though a value was set (C58_refuted), but never a wrong value (C58_never_wrong)."
  },
  {
   "property": "C59",
   "status": "proved",
   "theorems": [
    "Verif.Tss.C59_distinct",
    "Verif.Tss.C59_starts_null"
   ],
   "note": ""
  },
  {
   "property": "C60",
   "status": "partial",
   "theorems": [
    "Verif.Tss.C60_accounting",
    "Verif.Tss.C60_rightly_partial",
    "Verif.Tss.C60_nothing_left_partial",
    "Verif.Tss.C60_nothing_left_windows",
    "Verif.Tss.C60_refuted",
    "Verif.Tss.C60_reset_cleans",
    "Verif.Tss.C60_destroyed_partial"
   ],
   "note": "Each value is disposed of once or still held, always. False with a pthread key when the system stops calling the destructor of the key (C60_refuted); the right cleanup function is called unless an object is destroyed while an exiting thread is cleaning up its value (C61)."
  },
  {
   "property": "C61",
   "status": "partial",
   "theorems": [
    "Verif.Tss.C61_refuted",
    "Verif.Tss.C61_at_most_once_partial",
    "Verif.Tss.C61_considerate_partial"
   ],
   "note": "False of the code: the value is leaked, or passed to the cleanup function of another object (C61_refuted). Proved: never disposed of twice, and right if no value of the object is in a list being cleaned up."
  },
  {
   "property": "C62",
   "status": "partial",
   "theorems": [
    "Verif.Tss.C62_order",
    "Verif.Tss.C62_at_most_once",
    "Verif.Tss.C62_exactly_once_posix_partial",
    "Verif.Tss.C62_exactly_once_windows_partial",
    "Verif.Tss.C62_refuted_posix"
   ],
   "note": "Order and at most once: always. Exactly once: false with a pthread key when callbacks register callbacks more often than the system calls the destructor of the key (C62_refuted_posix) and on Windows for callbacks registered by cleanup functions (C64); proved otherwise."
  },
  {
   "property": "C63",
   "status": "partial",
   "theorems": [
    "Verif.Tss.C63_order_windows",
    "Verif.Tss.C63_order_posix_partial",
    "Verif.Tss.C63_notifications",
    "Verif.Tss.C63_all_notified_windows",
    "Verif.Tss.C63_all_notified_posix_partial",
    "Verif.Tss.C63_refuted_posix"
   ],
   "note": "Proved on Windows. With a pthread key, order of notifications proved; callbacks registered by callbacks run after the cleanups and notifications (C63_refuted_posix), otherwise the order is proved."
  },
  {
   "property": "C64",
   "status": "partial",
   "theorems": [
    "Verif.Tss.C64_refuted_windows",
    "Verif.Tss.C64_posix_partial"
   ],
   "note": "False on Windows (C64_refuted_windows); proved with a pthread key as long as the system calls the destructor of the key often enough."
  },
  {
   "property": "C65",
   "status": "partial",
   "theorems": [
    "Verif.Tss.C65_refuted_tls",
    "Verif.Tss.C65_tls_never",
    "Verif.Tss.C65_nothing_left_partial"
   ],
   "note": "False on POSIX systems with compiler-supported thread-local variables, where nothing is done at thread exit (C65_refuted_tls, C65_tls_never); proved for the other configurations."
  },
  {
   "property": "C66",
   "status": "proved",
   "theorems": [
    "Verif.TimerInit.C66_timer",
    "Verif.TimerInit.C66_timer_retry",
    "Verif.TimerInit.C66_timer_progress",
    "Verif.TssOnce.C66_tss",
    "Verif.TssOnce.C66_tss_progress",
    "Verif.Once.done_once",
    "Verif.Once.proceeded_after"
   ],
   "note": "Refinement of a specification of one-time initialisation (Verif.Spec.Once); done_once and proceeded_after spell out what the specification implies. InitOnceExecuteOnce and pthread_once belong to the OS and are not modelled."
  },
  {
   "property": "C67",
   "status": "proved",
   "theorems": [
    "Verif.SemName.C67_injective",
    "Verif.SemName.C67_terminated",
    "Verif.SemName.C67_digits"
   ],
   "note": "For all process ids; also that the name fills its buffer exactly."
  },
  {
   "property": "C68",
   "status": "proved",
   "theorems": [
    "Verif.WinGetEvent.C68_same_event",
    "Verif.WinGetEvent.C68_never_replaced",
    "Verif.WinGetEvent.C68_close_is_legal",
    "Verif.WinGetEvent.C68_no_leak",
    "Verif.WinGetEvent.C68_throws",
    "Verif.WinGetEvent.C68_completes"
   ],
   "note": "any number of threads"
  },
  {
   "property": "C69",
   "status": "proved",
   "theorems": [
    "Verif.Interrupted.C69_reports_the_answer",
    "Verif.Interrupted.C69_never_thrown",
    "Verif.Interrupted.C69_retries"
   ],
   "note": "Concerns the waits; try_wait of the POSIX semaphore reports EINTR as failure (C69_try_wait_interrupted)."
  },
  {
   "property": "C70",
   "status": "proved",
   "theorems": [
    "Verif.OsSem.C70_initial_permits",
    "Verif.OsSem.C70_constructor"
   ],
   "note": ""
  },
  {
   "property": "C71",
   "status": "partial",
   "theorems": [
    "Verif.Time.C71_mach_timeout_partial",
    "Verif.Time.C71_refuted"
   ],
   "note": "The seconds are truncated to 32 bits, so the property is false from 2^32 seconds on."
  },
  {
   "property": "C72",
   "status": "partial",
   "theorems": [
    "Verif.TssRace.C72_refuted_storage",
    "Verif.TssRace.C72_refuted_table",
    "Verif.TssRace.C72_races_partial",
    "Verif.TssRace.C72_list_partial",
    "Verif.TssRace.C72_free_partial"
   ],
   "note": "False of the code: delete_key writes the value tables of other threads, and thread exit reads the table of cleanup functions without the mutex. Proved: these are the only races, and a context is never freed while another thread may access it."
  },
  {
   "property": "C73",
   "status": "proved",
   "theorems": [
    "Verif.TimerInit.C73_one_key",
    "Verif.TimerInit.C73_one_slot",
    "Verif.TimerInit.C73_slots"
   ],
   "note": "Interleaving model of several modules sharing the named semaphore, every OS call may fail."
  },
  {
   "property": "C74",
   "status": "proved",
   "theorems": [
    "Verif.TimerContext.C74_one_timer",
    "Verif.TimerContext.C74_no_leak",
    "Verif.TimerContext.C74_no_double_release",
    "Verif.TimerContext.C74_later_calls",
    "Verif.TimerContext.C74_first_call"
   ],
   "note": "One thread, any sequence of calls, every OS call may fail."
  },
  {
   "property": "C75",
   "status": "partial",
   "theorems": [
    "Verif.TimerInit.C75_handles_refuted",
    "Verif.TimerInit.C75_handles_partial"
   ],
   "note": "False of the code: a handle is lost if the query of the semaphore and the allocation of a slot both fail and the initialisation is repeated. Proved: at most one per exception thrown, none without exception."
  },
  {
   "property": "C76",
   "status": "partial",
   "theorems": [
    "Verif.Monitor.C76_refuted_auto_event",
    "Verif.Monitor.C76_refuted_manual_event",
    "Verif.Monitor.C76_refuted_semaphore",
    "Verif.Monitor.C76_refuted_timed_mutex",
    "Verif.Monitor.C76_partial",
    "Verif.Monitor.C76_manual_event_partial"
   ],
   "note": "False: the repeated OS wait does not look at the data, a signal given in between is lost. Proved for executions without interruptions."
  },
  {
   "property": "C77",
   "status": "proved",
   "theorems": [
    "Verif.Monitor.C77_auto_event",
    "Verif.Monitor.C77_manual_event",
    "Verif.Monitor.C77_semaphore",
    "Verif.Monitor.C77_timed_mutex",
    "Verif.Monitor.C15_progress",
    "Verif.Monitor.C27_progress_partial",
    "Verif.Monitor.C28_progress_partial",
    "Verif.Monitor.C33_progress_partial"
   ],
   "note": "The history without the calls that threw is one of the atomic object; the progress theorems (with failures) show that the internal mutex is not left locked. The semaphore as long as the permits fit into 32 bits."
  },
  {
   "property": "C78",
   "status": "partial",
   "theorems": [
    "Verif.AutoSem.C78_refuted",
    "Verif.AutoSem.C26_remembers_partial",
    "Verif.AutoSem.C25_post_remembered",
    "Verif.AutoSem.C24_at_most_one_per_post"
   ],
   "note": "False: the increment of m_state is not undone, one more post is remembered for every wait that threw. Proved: no more than that, no post is lost and none is consumed by a wait that threw."
  },
  {
   "property": "C79",
   "status": "proved",
   "theorems": [
    "Verif.CondVarPosix.C79_mutex_held",
    "Verif.CondVarPosix.C79_exclusive",
    "Verif.CondVarPosix.C79_results",
    "Verif.CondVarPosix.C79_timeout_ends"
   ],
   "note": "Interleaving model with arbitrary protected data and predicates."
  },
  {
   "property": "C80",
   "status": "partial",
   "theorems": [
    "Verif.CondVarPosix.C80_refuted_user_clock",
    "Verif.CondVarPosix.C80_refuted_interrupted",
    "Verif.CondVarPosix.C80_partial",
    "Verif.CondVarPosix.C80_wakes",
    "Verif.CondVarPosix.C80_returns"
   ],
   "note": "False for time points of a user's clock and where interrupted waits are repeated: the wait sleeps again without a look at the data. Proved for all other waits."
  },
  {
   "property": "C81",
   "status": "partial",
   "theorems": [
    "Verif.WinMutex.C81_refuted",
    "Verif.WinMutex.C81_partial"
   ],
   "note": "False: unlock releases the lock bit first and then registers the event signal with a second write, which another thread's lock and unlock may precede. Proved when no thread is waiting at the release."
  },
  {
   "property": "C82",
   "status": "partial",
   "theorems": [
    "Verif.WinCv.C82_refuted",
    "Verif.WinCv.C82_partial"
   ],
   "note": "False: the assertion of the destructor holds as soon as all waiters are notified, but these still lock the internal mutex and write to the counters. Proved once every call has got to locking the user's lock again."
  },
  {
   "property": "C83",
   "status": "proved",
   "theorems": [
    "Verif.WinCv.C83_freed_once",
    "Verif.WinCv.C83_kept"
   ],
   "note": "The ring is one cycle through all waiter states in every reachable state."
  },
  {
   "property": "C84",
   "status": "proved",
   "theorems": [
    "Verif.WinEvent.C84_atomic",
    "Verif.WinEvent.C84_results",
    "Verif.WinEvent.C84_effects",
    "Verif.WinEvent.C84_wakes",
    "Verif.WinEvent.C84_returns"
   ],
   "note": "Interleaving model with an OS event whose calls may fail."
  },
  {
   "property": "C85",
   "status": "partial",
   "theorems": [
    "Verif.Lifecycle.C85_refuted",
    "Verif.Lifecycle.C85_partial",
    "Verif.Lifecycle.C85_destroyed",
    "Verif.Lifecycle.C85_objects",
    "Verif.Lifecycle.C85_succeeds",
    "Verif.Lifecycle.C85_twice"
   ],
   "note": "False for the emulated timed_mutex: the mutex is leaked if the condition variable cannot be created. Proved for all other classes; the destructors of all."
  },
  {
   "property": "C86",
   "status": "partial",
   "theorems": [
    "Verif.TssAlloc.C86_refuted_leak",
    "Verif.TssAlloc.C86_refuted_value",
    "Verif.TssAlloc.C86_refuted_callback",
    "Verif.TssAlloc.C86_refuted_delete",
    "Verif.TssAlloc.C86_unchanged_partial",
    "Verif.TssAlloc.C86_effect_partial",
    "Verif.TssAlloc.C86_release",
    "Verif.TssAlloc.C86_accounted",
    "Verif.TssAlloc.C86_nothing_left"
   ],
   "note": "False if locking the manager's mutex or storing the context pointer fails while a context is created, and deleting a key aborts. Proved otherwise, for any other failures; calls are atomic and callbacks do not call the library."
  },
  {
   "property": "C87",
   "status": "partial",
   "theorems": [
    "Verif.TssProcess.C87_refuted_delete",
    "Verif.TssProcess.C87_refuted_store",
    "Verif.TssProcess.C87_refuted_get",
    "Verif.TssProcess.C87_refuted_race",
    "Verif.TssProcess.C87_refuted_unlock",
    "Verif.TssProcess.C87_refuted_lost",
    "Verif.TssProcess.C87_no_ub_partial",
    "Verif.TssProcess.C87_exact",
    "Verif.TssProcess.C87_at_most_partial",
    "Verif.TssProcess.C87_dealt_partial",
    "Verif.TssProcess.C87_all_dealt_partial",
    "Verif.TssProcess.C87_function",
    "Verif.TssProcess.C87_ends",
    "Verif.TssProcess.C87_again",
    "Verif.TssProcess.C87_get_after"
   ],
   "note": "False: functions called while the manager is destroyed, or later, use the null pointer or deleted contexts; mutexes are unlocked by the wrong thread; callbacks registered by cleanup functions are lost. Proved if only the calls stated are made then, and these are exactly the ones that are not undefined."
  },
  {
   "property": "C88",
   "status": "partial",
   "theorems": [
    "Verif.TssHooks.C88_refuted_mingw",
    "Verif.TssHooks.C88_refuted_mingw_old",
    "Verif.TssHooks.C88_refuted_atexit",
    "Verif.TssHooks.C88_refuted_values",
    "Verif.TssHooks.C88_refuted_callbacks",
    "Verif.TssHooks.C88_contract_partial",
    "Verif.TssHooks.C88_mingw_partial",
    "Verif.TssHooks.C88_mine",
    "Verif.TssHooks.C88_last"
   ],
   "note": "False for static MinGW builds: a recent one never calls on_process_exit nor on_thread_exit for the main thread, an old one calls on_thread_exit for no other thread. Proved for the DLL and for MSVC, if atexit does not fail; what the loader tells the library is assumed."
  },
  {
   "property": "C89",
   "status": "partial",
   "theorems": [
    "Verif.AutoSemOrder.C89_refuted",
    "Verif.AutoSemOrder.C89_lost_refuted",
    "Verif.AutoSemOrder.C89_ends",
    "Verif.AutoSemOrder.C89_effective_partial",
    "Verif.AutoSemOrder.C89_counted_partial",
    "Verif.AutoSemOrder.C89_dropped_partial",
    "Verif.AutoSemOrder.C89_newest",
    "Verif.AutoSemOrder.C89_at_most_one_per_post",
    "Verif.AutoSemOrder.C89_remembers_partial",
    "Verif.AutoSemOrder.C89_covers"
   ],
   "note": "False: a post that finds the event set publishes nothing (a release fence with no store after it) and may have read an old value, so a blocked thread may not be woken. Proved for posts that make a permit; for others, what they have read is not older than what they know of. The counting bounds of C24 and C26 hold whatever is loaded."
  },
  {
   "property": "C90",
   "status": "partial",
   "theorems": [
    "Verif.AutoFutexOrder.C90_lost_refuted",
    "Verif.AutoFutexOrder.C90_dropped_partial",
    "Verif.AutoFutexOrder.C90_fails_partial",
    "Verif.AutoFutexOrder.C90_informed_post",
    "Verif.AutoFutexOrder.C90_informed_wait",
    "Verif.AutoFutexOrder.C90_at_most_one_per_post",
    "Verif.AutoFutexOrder.C90_covers"
   ],
   "note": "False: post loads the word with a relaxed load and gives up on what it finds, so a thread that is already blocked again may not be woken. Proved: what was found was current at an instant not before anything the thread knows of; a thread that knows of all changes gives up, or fails, only if that is right now."
  },
  {
   "property": "C91",
   "status": "partial",
   "theorems": [
    "Verif.Monitor.C91_emulated_event",
    "Verif.Monitor.C91_emulated_semaphore",
    "Verif.Monitor.C91_emulated_mutex",
    "Verif.Monitor.C91_emulated_manual",
    "Verif.Monitor.C91_event_none_inside",
    "Verif.Monitor.C91_semaphore_none_inside",
    "Verif.Monitor.C91_mutex_none_inside",
    "Verif.Monitor.C91_manual_none_inside",
    "Verif.AutoSem.C91_sem_event",
    "Verif.AutoSem.C91_sem_event_counts",
    "Verif.Spin.C91_spin",
    "Verif.SharedSpin.C91_shared_spin",
    "Verif.AutoFutex.C91_auto_futex_refuted",
    "Verif.AutoFutex.C91_auto_futex_counts_partial",
    "Verif.AutoFutex.C91_auto_futex_word_partial",
    "Verif.AutoFutex.C91_auto_futex_alone_partial",
    "Verif.ManualFutex.C91_manual_futex_refuted",
    "Verif.ManualFutex.C91_manual_futex_counts_partial",
    "Verif.ManualFutex.C91_manual_futex_word_partial",
    "Verif.ManualFutex.C91_manual_futex_alone_partial"
   ],
   "note": "Proved for the spin mutexes, the emulations and the event over a semaphore. False for the events on futexes: post and set make a futex system call with the address of the word after the waiter may have returned. Proved for those: nothing but this call, the word itself is not accessed, and not even the call if no thread was registered as waiting."
  },
  {
   "property": "C92",
   "status": "partial",
   "theorems": [
    "Verif.Failures.C92_posix_failures_reported",
    "Verif.Failures.C92_posix_semaphore_waits_partial",
    "Verif.Failures.C92_posix_semaphore_wait_refuted",
    "Verif.Failures.C92_posix_emulated_timed_mutex_partial",
    "Verif.Failures.C92_posix_emulated_timed_mutex_refuted",
    "Verif.Failures.C92_emulated_failures_reported",
    "Verif.Failures.C92_windows_event_failures_reported",
    "Verif.Failures.C92_windows_mutex_failures_reported",
    "Verif.Failures.C92_windows_semaphore_failures_partial",
    "Verif.Failures.C92_windows_semaphore_failures_refuted",
    "Verif.Failures.C92_windows_cv_failures_partial",
    "Verif.Failures.C92_windows_wakeup_failures_refuted",
    "Verif.Failures.C92_macos_failures_partial",
    "Verif.Failures.C92_macos_interruption_refuted"
   ],
   "note": "Proved for POSIX mutexes (with pthread_mutex_timedlock), condition variables and semaphore post, for the emulations, condition_variable_any, and for the events, mutexes and waitable timer of Windows. False: POSIX semaphore waits treat EDEADLK like misuse and return normally with NDEBUG; the timed mutex without pthread_mutex_timedlock ignores failed locks and waits with NDEBUG; the Windows semaphore throws lock_error from a wait until a time point and calls every failed post an overflow; failed wake-ups (SetEvent in unlock, ReleaseSemaphore in notify) are ignored on Windows; an interrupted timed wait of the Mach semaphore throws. The partial theorems say what holds apart from exactly these cases."
  },
  {
   "property": "C93",
   "status": "partial",
   "theorems": [
    "Verif.Failures.C93_noexcept_functions_safe",
    "Verif.Failures.C93_noexcept_functions_partial",
    "Verif.Failures.C93_noexcept_functions_refuted",
    "Verif.Failures.C93_waiting_terminates_refuted",
    "Verif.Failures.C92_emulated_failures_reported",
    "Verif.Failures.C92_windows_cv_failures_partial"
   ],
   "note": "Proved for all destructors and for POSIX unlock and notify. False: Windows unlock creates the event of the mutex and throws resource_error inside noexcept; notify_one and notify_all lock and unlock such a mutex; set of the event over a POSIX semaphore lets overflow_error escape; waiting terminates if the user's mutex throws in relocker::unlock or while another exception propagates. Partial theorems: exactly these calls can terminate the process."
  },
  {
   "property": "C94",
   "status": "partial",
   "theorems": [
    "Verif.Failures.C94_posix_mutex",
    "Verif.Failures.C94_posix_semaphore_partial",
    "Verif.Failures.C94_posix_semaphore_refuted",
    "Verif.Failures.C94_windows",
    "Verif.Failures.C94_macos",
    "Verif.Failures.C94_timeouts",
    "Verif.Failures.C94_cond_status",
    "Verif.Failures.C94_full_time",
    "Verif.Failures.C94_shared_data"
   ],
   "note": "Proved for POSIX mutexes, the Windows, Mach and Dispatch objects and the events over semaphores; for the POSIX semaphore apart from two cases that are false: wait returns with NDEBUG when a deadlock is detected though nothing was taken, and try_wait returns false when sem_trywait is interrupted. Timed waits on condition variables and timed locks that are not one object of the system: false only after a timeout (C94_timeouts), on Windows after the whole duration (C94_full_time); the result is that of the last look at the shared data (C94_shared_data)."
  },
  {
   "property": "C95",
   "status": "partial",
   "theorems": [
    "Verif.Failures.C95_internal_mutex",
    "Verif.Failures.C95_emulated_timed_mutex_partial",
    "Verif.Failures.C95_emulated_timed_mutex_refuted",
    "Verif.Failures.C95_user_lock"
   ],
   "note": "Proved for the emulated events and semaphores and for all waits on condition variables. False: the timed mutex without pthread_mutex_timedlock ignores a failed pthread_mutex_lock with NDEBUG and uses its flag unprotected; proved for debug builds."
  },
  {
   "property": "C96",
   "status": "proved",
   "theorems": [
    "Verif.AutoFutex.C96_bounded",
    "Verif.AutoFutex.C96_not_wait_free",
    "Verif.AutoFutex.C96_rest",
    "Verif.ManualFutex.C96_bounded",
    "Verif.ManualFutex.C96_rest",
    "Verif.WinMutex.C96_bounded",
    "Verif.WinMutex.C96_rest",
    "Verif.Spin.C96_bounded",
    "Verif.Spin.C96_rest",
    "Verif.SharedSpin.C96_bounded",
    "Verif.SharedSpin.C96_rest",
    "Verif.AutoSem.C96_bounded",
    "Verif.AutoSem.C96_rest",
    "Verif.Monitor.C96_bounded",
    "Verif.CvAny.C96_bounded",
    "Verif.CondVarPosix.C96_bounded",
    "Verif.WinCv.C96_settles",
    "Verif.TimerInit.C96_bounded",
    "Verif.TimerInit.C96_rest",
    "Verif.TssOnce.C96_bounded",
    "Verif.TssOnce.C96_rest"
   ],
   "note": "The constants are 3 to 22n+40 for n threads. The Windows condition variable: it comes to rest (C96_settles), without a constant. Single calls are not bounded (C96_not_wait_free)."
  },
  {
   "property": "C97",
   "status": "proved",
   "theorems": [
    "Verif.WinCv.C97_semaphore_limit",
    "Verif.WinCv.C97_units_available",
    "Verif.WinCv.C97_release_can_fail",
    "Verif.WinCv.C97_stale_wakeups",
    "Verif.WinCv.C35_no_lost_wakeup"
   ],
   "note": "That no notification is lost is C35_no_lost_wakeup and C35_quiescent, whose model now has semaphores with a maximum."
  },
  {
   "property": "C98",
   "status": "proved",
   "theorems": [
    "Verif.Config.C98_any_order",
    "Verif.Config.C98_one_platform",
    "Verif.Config.C98_one_implementation",
    "Verif.Config.C98_use_pthread",
    "Verif.Config.C98_declared_before_use",
    "Verif.Config.C98_event_over_semaphore",
    "Verif.Config.C98_futex_flags"
   ],
   "note": "For a model of the preprocessor; macros of the library must not be defined from outside."
  },
  {
   "property": "C99",
   "status": "partial",
   "theorems": [
    "Verif.Config.C99_layout_partial",
    "Verif.Config.C99_timed_mutex_partial",
    "Verif.Config.C99_semaphore_partial",
    "Verif.Config.C99_atomic_partial",
    "Verif.Config.C99_layout_refuted",
    "Verif.Config.C99_spin_refuted"
   ],
   "note": "Proved for mutexes, condition variables and manual reset events; for the others if both units find the same semaphores, timed locks and atomics. False otherwise: semaphores for Mac OS X 10.5 and 10.6, spin mutexes in C++98 and C++11."
  }
 ]
}
