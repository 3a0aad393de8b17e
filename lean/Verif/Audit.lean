import Verif.Base.LTS
import Verif.Base.Count
import Verif.Base.View
import Verif.Props.SpinMutex
import Verif.Props.SharedSpinMutex
import Verif.Props.AutoEventFutex
import Verif.Props.ManualEventFutex
import Verif.Props.WinMutex
import Verif.Props.WinGetEvent
import Verif.Props.Emulation
import Verif.Props.EmulationFaults
import Verif.Props.AutoEventSem
import Verif.Props.WinCondVar
import Verif.Props.CondVarPosix
import Verif.Props.CvAny
import Verif.Props.PredLoops
import Verif.Props.OsSemaphore
import Verif.Props.Interrupted
import Verif.Props.Time
import Verif.Props.UserClock
import Verif.Props.WaitLoop
import Verif.Props.Locks
import Verif.Props.Guards
import Verif.Props.Tss
import Verif.Props.TssExit
import Verif.Props.OnceInit
import Verif.Props.SemName
import Verif.Props.TimerContext
import Verif.Props.TssRace
import Verif.Props.SpinProgress
import Verif.Props.SharedSpinProgress
import Verif.Props.AutoFutexProgress
import Verif.Props.ManualFutexProgress
import Verif.Props.WinMutexProgress
import Verif.Props.WinMutexDestroy
import Verif.Props.AutoSemProgress
import Verif.Props.CvAnyResults
import Verif.Props.WinCondVarResults
import Verif.Props.WinCondVarDestroy
import Verif.Props.LockEffects
import Verif.Props.TssEffects
import Verif.Props.WinEvent
import Verif.Props.Lifecycle
import Verif.Props.TssAlloc
import Verif.Props.TssProcess
import Verif.Props.TssHooks
import Verif.Props.AutoSemOrder
import Verif.Props.AutoFutexOrder
import Verif.Props.Returned
import Verif.Props.Failures
import Verif.Props.Outcome
import Verif.Props.Effort
import Verif.Props.WinCondVarFull
import Verif.Props.ConfigSelect
import Verif.Props.ConfigAbi
import Verif.Props.ConfigDiag
import Verif.Props.ConfigPromise
import Verif.Props.ConfigBuild
import Verif.Props.ConfigSpin
import Verif.Props.ManualFutexOrder
import Verif.Props.ResetKnows
import Verif.Props.WinCvOrder
import Verif.Props.ErrCode
import Verif.Props.TimePoint
import Verif.Props.Numbered
import Verif.Props.Instantiate
import Verif.Props.LockMembers
import Verif.Props.Alone
import Verif.Props.Newest
import Verif.Props.Held
import Verif.Props.WinCvFail
import Verif.Props.Starvation
import Verif.Props.StarvationSem
import Verif.Props.Notified
import Verif.Props.NotifiedWin
import Verif.Props.NotifiedPosix
import Verif.Props.OnceEnds
import Verif.Props.TimedEnds
import Verif.Props.TimedRetries
import Verif.Props.ClockEnds
import Verif.Props.LocksThrow
import Verif.Props.GuardsThrow
import Verif.Props.TimedWaits

/-! The axioms each theorem of the manifest depends on: the build fails if one of them changes.  Written by tools/audit.py. -/

/-- info: 'Verif.Spin.C01_spin_mutual_exclusion' depends on axioms: [propext, Classical.choice, Quot.sound] -/
#guard_msgs (whitespace := lax) in
#print axioms Verif.Spin.C01_spin_mutual_exclusion

/-- info: 'Verif.Spin.C02_spin_happens_before' depends on axioms: [propext, Classical.choice, Quot.sound] -/
#guard_msgs (whitespace := lax) in
#print axioms Verif.Spin.C02_spin_happens_before

/-- info: 'Verif.Spin.C02_items' depends on axioms: [propext, Classical.choice, Quot.sound] -/
#guard_msgs (whitespace := lax) in
#print axioms Verif.Spin.C02_items

/-- info: 'Verif.Spin.C03_spin_try_lock_exact' depends on axioms: [propext, Classical.choice, Quot.sound] -/
#guard_msgs (whitespace := lax) in
#print axioms Verif.Spin.C03_spin_try_lock_exact

/-- info: 'Verif.Spin.C03_spin_lock_succeeds_when_free' depends on axioms: [propext, Classical.choice, Quot.sound] -/
#guard_msgs (whitespace := lax) in
#print axioms Verif.Spin.C03_spin_lock_succeeds_when_free

/-- info: 'Verif.Spin.C03_spin_lock_completes' depends on axioms: [propext, Classical.choice, Quot.sound] -/
#guard_msgs (whitespace := lax) in
#print axioms Verif.Spin.C03_spin_lock_completes

/-- info: 'Verif.SharedSpin.C04_shared_spin_exclusion' depends on axioms: [propext, Classical.choice, Quot.sound] -/
#guard_msgs (whitespace := lax) in
#print axioms Verif.SharedSpin.C04_shared_spin_exclusion

/-- info: 'Verif.SharedSpin.C05_try_lock_exact' depends on axioms: [propext, Classical.choice, Quot.sound] -/
#guard_msgs (whitespace := lax) in
#print axioms Verif.SharedSpin.C05_try_lock_exact

/-- info: 'Verif.SharedSpin.C05_lock_succeeds_when_free' depends on axioms: [propext, Classical.choice, Quot.sound] -/
#guard_msgs (whitespace := lax) in
#print axioms Verif.SharedSpin.C05_lock_succeeds_when_free

/-- info: 'Verif.SharedSpin.C05_lock_completes' depends on axioms: [propext, Classical.choice, Quot.sound] -/
#guard_msgs (whitespace := lax) in
#print axioms Verif.SharedSpin.C05_lock_completes

/-- info: 'Verif.SharedSpin.C05_lock_shared_completes' depends on axioms: [propext, Classical.choice, Quot.sound] -/
#guard_msgs (whitespace := lax) in
#print axioms Verif.SharedSpin.C05_lock_shared_completes

/-- info: 'Verif.SharedSpin.C06_shared_capacity' depends on axioms: [propext, Classical.choice, Quot.sound] -/
#guard_msgs (whitespace := lax) in
#print axioms Verif.SharedSpin.C06_shared_capacity

/-- info: 'Verif.SharedSpin.C06_capacity_sharp' depends on axioms: [propext, Classical.choice, Quot.sound] -/
#guard_msgs (whitespace := lax) in
#print axioms Verif.SharedSpin.C06_capacity_sharp

/-- info: 'Verif.SharedSpin.C07_exclusive_sees_all' depends on axioms: [propext, Classical.choice, Quot.sound] -/
#guard_msgs (whitespace := lax) in
#print axioms Verif.SharedSpin.C07_exclusive_sees_all

/-- info: 'Verif.SharedSpin.C07_shared_sees_exclusive' depends on axioms: [propext, Classical.choice, Quot.sound] -/
#guard_msgs (whitespace := lax) in
#print axioms Verif.SharedSpin.C07_shared_sees_exclusive

/-- info: 'Verif.SharedSpin.C07_items' depends on axioms: [propext, Classical.choice, Quot.sound] -/
#guard_msgs (whitespace := lax) in
#print axioms Verif.SharedSpin.C07_items

/-- info: 'Verif.SharedSpin.C08_try_lock_shared_refuted' depends on axioms: [propext, Quot.sound] -/
#guard_msgs (whitespace := lax) in
#print axioms Verif.SharedSpin.C08_try_lock_shared_refuted

/-- info: 'Verif.SharedSpin.C08_try_lock_shared_partial' depends on axioms: [propext, Classical.choice, Quot.sound] -/
#guard_msgs (whitespace := lax) in
#print axioms Verif.SharedSpin.C08_try_lock_shared_partial

/-- info: 'Verif.WinMutex.C09_win_mutual_exclusion' depends on axioms: [propext, Classical.choice, Quot.sound] -/
#guard_msgs (whitespace := lax) in
#print axioms Verif.WinMutex.C09_win_mutual_exclusion

/-- info: 'Verif.WinMutex.C10_no_lost_wakeup' depends on axioms: [propext, Classical.choice, Quot.sound] -/
#guard_msgs (whitespace := lax) in
#print axioms Verif.WinMutex.C10_no_lost_wakeup

/-- info: 'Verif.WinMutex.C10_progress' depends on axioms: [propext, Classical.choice, Quot.sound] -/
#guard_msgs (whitespace := lax) in
#print axioms Verif.WinMutex.C10_progress

/-- info: 'Verif.WinMutex.C10_call_completes' depends on axioms: [propext, Classical.choice, Quot.sound] -/
#guard_msgs (whitespace := lax) in
#print axioms Verif.WinMutex.C10_call_completes

/-- info: 'Verif.Config.C100_diagnostics_partial' depends on axioms: [propext, Quot.sound] -/
#guard_msgs (whitespace := lax) in
#print axioms Verif.Config.C100_diagnostics_partial

/-- info: 'Verif.Config.C100_diagnostics_refuted' depends on axioms: [propext] -/
#guard_msgs (whitespace := lax) in
#print axioms Verif.Config.C100_diagnostics_refuted

/-- info: 'Verif.Config.C101_constexpr_macro' depends on axioms: [propext, Quot.sound] -/
#guard_msgs (whitespace := lax) in
#print axioms Verif.Config.C101_constexpr_macro

/-- info: 'Verif.Config.C101_constexpr_members' depends on axioms: [propext, Quot.sound] -/
#guard_msgs (whitespace := lax) in
#print axioms Verif.Config.C101_constexpr_members

/-- info: 'Verif.Config.C101_native_handle_macro' depends on axioms: [propext, Quot.sound] -/
#guard_msgs (whitespace := lax) in
#print axioms Verif.Config.C101_native_handle_macro

/-- info: 'Verif.Config.C101_compatible_mutex' depends on axioms: [propext, Quot.sound] -/
#guard_msgs (whitespace := lax) in
#print axioms Verif.Config.C101_compatible_mutex

/-- info: 'Verif.Config.C101_tls' depends on axioms: [propext, Quot.sound] -/
#guard_msgs (whitespace := lax) in
#print axioms Verif.Config.C101_tls

/-- info: 'Verif.Config.C102_one_tss' depends on axioms: [propext, Classical.choice, Quot.sound] -/
#guard_msgs (whitespace := lax) in
#print axioms Verif.Config.C102_one_tss

/-- info: 'Verif.Config.C102_one_storage' depends on axioms: [propext, Classical.choice, Quot.sound] -/
#guard_msgs (whitespace := lax) in
#print axioms Verif.Config.C102_one_storage

/-- info: 'Verif.Config.C102_hook_partial' depends on axioms: [propext, Quot.sound] -/
#guard_msgs (whitespace := lax) in
#print axioms Verif.Config.C102_hook_partial

/-- info: 'Verif.Config.C102_hook_refuted' depends on axioms: [propext] -/
#guard_msgs (whitespace := lax) in
#print axioms Verif.Config.C102_hook_refuted

/-- info: 'Verif.Config.C102_api' depends on axioms: [propext, Quot.sound] -/
#guard_msgs (whitespace := lax) in
#print axioms Verif.Config.C102_api

/-- info: 'Verif.Config.C102_auto_link' depends on axioms: [propext, Quot.sound] -/
#guard_msgs (whitespace := lax) in
#print axioms Verif.Config.C102_auto_link

/-- info: 'Verif.Config.C103_lock_free_partial' depends on axioms: [propext, Quot.sound] -/
#guard_msgs (whitespace := lax) in
#print axioms Verif.Config.C103_lock_free_partial

/-- info: 'Verif.Config.C103_dead_code' depends on axioms: [propext, Quot.sound] -/
#guard_msgs (whitespace := lax) in
#print axioms Verif.Config.C103_dead_code

/-- info: 'Verif.Config.C103_lock_free_refuted' depends on axioms: [propext] -/
#guard_msgs (whitespace := lax) in
#print axioms Verif.Config.C103_lock_free_refuted

/-- info: 'Verif.ManualFutexOrder.C104_success' depends on axioms: [propext, Classical.choice, Quot.sound] -/
#guard_msgs (whitespace := lax) in
#print axioms Verif.ManualFutexOrder.C104_success

/-- info: 'Verif.ManualFutexOrder.C104_fails' depends on axioms: [propext, Classical.choice, Quot.sound] -/
#guard_msgs (whitespace := lax) in
#print axioms Verif.ManualFutexOrder.C104_fails

/-- info: 'Verif.ManualFutexOrder.C104_informed_success' depends on axioms: [propext, Classical.choice, Quot.sound] -/
#guard_msgs (whitespace := lax) in
#print axioms Verif.ManualFutexOrder.C104_informed_success

/-- info: 'Verif.ManualFutexOrder.C104_informed_fails' depends on axioms: [propext, Classical.choice, Quot.sound] -/
#guard_msgs (whitespace := lax) in
#print axioms Verif.ManualFutexOrder.C104_informed_fails

/-- info: 'Verif.ManualFutexOrder.C104_no_lost_wakeup' depends on axioms: [propext, Classical.choice, Quot.sound] -/
#guard_msgs (whitespace := lax) in
#print axioms Verif.ManualFutexOrder.C104_no_lost_wakeup

/-- info: 'Verif.ManualFutexOrder.C104_covers' depends on axioms: [propext, Quot.sound] -/
#guard_msgs (whitespace := lax) in
#print axioms Verif.ManualFutexOrder.C104_covers

/-- info: 'Verif.MonitorOrder.C105_emulation' depends on axioms: [propext, Quot.sound] -/
#guard_msgs (whitespace := lax) in
#print axioms Verif.MonitorOrder.C105_emulation

/-- info: 'Verif.MonitorOrder.C105_emulation_update' depends on axioms: [propext, Quot.sound] -/
#guard_msgs (whitespace := lax) in
#print axioms Verif.MonitorOrder.C105_emulation_update

/-- info: 'Verif.ManualFutexOrder.C105_futex_refuted' depends on axioms: [propext, Quot.sound] -/
#guard_msgs (whitespace := lax) in
#print axioms Verif.ManualFutexOrder.C105_futex_refuted

/-- info: 'Verif.ManualFutexOrder.C105_futex_later_partial' depends on axioms: [propext, Classical.choice, Quot.sound] -/
#guard_msgs (whitespace := lax) in
#print axioms Verif.ManualFutexOrder.C105_futex_later_partial

/-- info: 'Verif.MonitorOrder.C105_items' depends on axioms: [propext, Classical.choice, Quot.sound] -/
#guard_msgs (whitespace := lax) in
#print axioms Verif.MonitorOrder.C105_items

/-- info: 'Verif.MonitorOrder.C105_covers' depends on axioms: [propext, Quot.sound] -/
#guard_msgs (whitespace := lax) in
#print axioms Verif.MonitorOrder.C105_covers

/-- info: 'Verif.WinCvOrder.C106_skip' depends on axioms: [propext, Classical.choice, Quot.sound] -/
#guard_msgs (whitespace := lax) in
#print axioms Verif.WinCvOrder.C106_skip

/-- info: 'Verif.WinCvOrder.C106_informed' depends on axioms: [propext, Classical.choice, Quot.sound] -/
#guard_msgs (whitespace := lax) in
#print axioms Verif.WinCvOrder.C106_informed

/-- info: 'Verif.WinCvOrder.C106_user_lock' depends on axioms: [propext, Classical.choice, Quot.sound] -/
#guard_msgs (whitespace := lax) in
#print axioms Verif.WinCvOrder.C106_user_lock

/-- info: 'Verif.WinCvOrder.C106_grants' depends on axioms: [propext, Classical.choice, Quot.sound] -/
#guard_msgs (whitespace := lax) in
#print axioms Verif.WinCvOrder.C106_grants

/-- info: 'Verif.WinCvOrder.C106_inside' depends on axioms: [propext, Classical.choice, Quot.sound] -/
#guard_msgs (whitespace := lax) in
#print axioms Verif.WinCvOrder.C106_inside

/-- info: 'Verif.WinCvOrder.C106_no_lost_wakeup' depends on axioms: [propext, Classical.choice, Quot.sound] -/
#guard_msgs (whitespace := lax) in
#print axioms Verif.WinCvOrder.C106_no_lost_wakeup

/-- info: 'Verif.WinCvOrder.C106_total_count' depends on axioms: [propext, Classical.choice, Quot.sound] -/
#guard_msgs (whitespace := lax) in
#print axioms Verif.WinCvOrder.C106_total_count

/-- info: 'Verif.WinCvOrder.C106_covers' depends on axioms: [propext, Classical.choice, Quot.sound] -/
#guard_msgs (whitespace := lax) in
#print axioms Verif.WinCvOrder.C106_covers

/-- info: 'Verif.ErrCode.C107_boost' depends on axioms: [propext] -/
#guard_msgs (whitespace := lax) in
#print axioms Verif.ErrCode.C107_boost

/-- info: 'Verif.ErrCode.C107_std_partial' depends on axioms: [propext, Quot.sound] -/
#guard_msgs (whitespace := lax) in
#print axioms Verif.ErrCode.C107_std_partial

/-- info: 'Verif.ErrCode.C107_std_sites' depends on axioms: [propext] -/
#guard_msgs (whitespace := lax) in
#print axioms Verif.ErrCode.C107_std_sites

/-- info: 'Verif.ErrCode.C107_std_refuted' depends on axioms: [propext] -/
#guard_msgs (whitespace := lax) in
#print axioms Verif.ErrCode.C107_std_refuted

/-- info: 'Verif.ErrCode.C107_condition_partial' depends on axioms: [propext] -/
#guard_msgs (whitespace := lax) in
#print axioms Verif.ErrCode.C107_condition_partial

/-- info: 'Verif.ErrCode.C107_condition_refuted' depends on axioms: [propext] -/
#guard_msgs (whitespace := lax) in
#print axioms Verif.ErrCode.C107_condition_refuted

/-- info: 'Verif.ErrCode.C107_lock_objects' depends on axioms: [propext] -/
#guard_msgs (whitespace := lax) in
#print axioms Verif.ErrCode.C107_lock_objects

/-- info: 'Verif.TimePoint.C108_posix_partial' depends on axioms: [propext, Classical.choice, Quot.sound] -/
#guard_msgs (whitespace := lax) in
#print axioms Verif.TimePoint.C108_posix_partial

/-- info: 'Verif.TimePoint.C108_posix_exact' depends on axioms: [propext, Classical.choice, Quot.sound] -/
#guard_msgs (whitespace := lax) in
#print axioms Verif.TimePoint.C108_posix_exact

/-- info: 'Verif.TimePoint.C108_posix_refuted' depends on axioms: [propext, Classical.choice, Quot.sound] -/
#guard_msgs (whitespace := lax) in
#print axioms Verif.TimePoint.C108_posix_refuted

/-- info: 'Verif.TimePoint.C108_windows_partial' depends on axioms: [propext, Classical.choice, Quot.sound] -/
#guard_msgs (whitespace := lax) in
#print axioms Verif.TimePoint.C108_windows_partial

/-- info: 'Verif.TimePoint.C108_windows_early_refuted' depends on axioms: [propext, Classical.choice, Quot.sound] -/
#guard_msgs (whitespace := lax) in
#print axioms Verif.TimePoint.C108_windows_early_refuted

/-- info: 'Verif.TimePoint.C108_windows_refuted' depends on axioms: [propext, Classical.choice, Quot.sound] -/
#guard_msgs (whitespace := lax) in
#print axioms Verif.TimePoint.C108_windows_refuted

/-- info: 'Verif.Instantiate.C109_exact' depends on axioms: [propext, Classical.choice, Quot.sound] -/
#guard_msgs (whitespace := lax) in
#print axioms Verif.Instantiate.C109_exact

/-- info: 'Verif.Instantiate.C109_accepts_partial' depends on axioms: [propext, Classical.choice, Quot.sound] -/
#guard_msgs (whitespace := lax) in
#print axioms Verif.Instantiate.C109_accepts_partial

/-- info: 'Verif.Instantiate.C109_clocks_partial' depends on axioms: [propext, Classical.choice, Quot.sound] -/
#guard_msgs (whitespace := lax) in
#print axioms Verif.Instantiate.C109_clocks_partial

/-- info: 'Verif.Instantiate.C109_refuses' depends on axioms: [propext, Classical.choice, Quot.sound] -/
#guard_msgs (whitespace := lax) in
#print axioms Verif.Instantiate.C109_refuses

/-- info: 'Verif.Instantiate.C109_absent' depends on axioms: [propext, Quot.sound] -/
#guard_msgs (whitespace := lax) in
#print axioms Verif.Instantiate.C109_absent

/-- info: 'Verif.Instantiate.C109_coarse_refuted' depends on axioms: [propext, Classical.choice, Quot.sound] -/
#guard_msgs (whitespace := lax) in
#print axioms Verif.Instantiate.C109_coarse_refuted

/-- info: 'Verif.Instantiate.C109_manual_refuted' depends on axioms: [propext, Classical.choice, Quot.sound] -/
#guard_msgs (whitespace := lax) in
#print axioms Verif.Instantiate.C109_manual_refuted

/-- info: 'Verif.WinMutex.C11_event_not_set_twice' depends on axioms: [propext, Classical.choice, Quot.sound] -/
#guard_msgs (whitespace := lax) in
#print axioms Verif.WinMutex.C11_event_not_set_twice

/-- info: 'Verif.WinMutex.C11_one_thread_released' depends on axioms: [propext, Classical.choice, Quot.sound] -/
#guard_msgs (whitespace := lax) in
#print axioms Verif.WinMutex.C11_one_thread_released

/-- info: 'Verif.LockMembers.C110_exact' depends on axioms: [propext, Quot.sound] -/
#guard_msgs (whitespace := lax) in
#print axioms Verif.LockMembers.C110_exact

/-- info: 'Verif.LockMembers.C110_usable_partial' depends on axioms: [propext, Quot.sound] -/
#guard_msgs (whitespace := lax) in
#print axioms Verif.LockMembers.C110_usable_partial

/-- info: 'Verif.LockMembers.C110_conversions_refuted' depends on axioms: [propext, Quot.sound] -/
#guard_msgs (whitespace := lax) in
#print axioms Verif.LockMembers.C110_conversions_refuted

/-- info: 'Verif.LockMembers.C110_absent' depends on axioms: [propext] -/
#guard_msgs (whitespace := lax) in
#print axioms Verif.LockMembers.C110_absent

/-- info: 'Verif.LockMembers.C110_library_upgrade' depends on axioms: [propext, Classical.choice, Quot.sound] -/
#guard_msgs (whitespace := lax) in
#print axioms Verif.LockMembers.C110_library_upgrade

/-- info: 'Verif.LockMembers.C110_library' depends on axioms: [propext, Classical.choice, Quot.sound] -/
#guard_msgs (whitespace := lax) in
#print axioms Verif.LockMembers.C110_library

/-- info: 'Verif.Spin.C111_returns' depends on axioms: [propext, Quot.sound] -/
#guard_msgs (whitespace := lax) in
#print axioms Verif.Spin.C111_returns

/-- info: 'Verif.Spin.C111_lock' depends on axioms: [propext, Classical.choice, Quot.sound] -/
#guard_msgs (whitespace := lax) in
#print axioms Verif.Spin.C111_lock

/-- info: 'Verif.SharedSpin.C111_returns' depends on axioms: [propext, Quot.sound] -/
#guard_msgs (whitespace := lax) in
#print axioms Verif.SharedSpin.C111_returns

/-- info: 'Verif.SharedSpin.C111_lock' depends on axioms: [propext, Classical.choice, Quot.sound] -/
#guard_msgs (whitespace := lax) in
#print axioms Verif.SharedSpin.C111_lock

/-- info: 'Verif.SharedSpin.C111_lock_shared' depends on axioms: [propext, Classical.choice, Quot.sound] -/
#guard_msgs (whitespace := lax) in
#print axioms Verif.SharedSpin.C111_lock_shared

/-- info: 'Verif.WinMutex.C111_returns' depends on axioms: [propext, Classical.choice, Quot.sound] -/
#guard_msgs (whitespace := lax) in
#print axioms Verif.WinMutex.C111_returns

/-- info: 'Verif.WinMutex.C111_enters' depends on axioms: [propext, Classical.choice, Quot.sound] -/
#guard_msgs (whitespace := lax) in
#print axioms Verif.WinMutex.C111_enters

/-- info: 'Verif.WinMutex.C111_free' depends on axioms: [propext, Classical.choice, Quot.sound] -/
#guard_msgs (whitespace := lax) in
#print axioms Verif.WinMutex.C111_free

/-- info: 'Verif.AutoFutex.C111_returns' depends on axioms: [propext, Classical.choice, Quot.sound] -/
#guard_msgs (whitespace := lax) in
#print axioms Verif.AutoFutex.C111_returns

/-- info: 'Verif.AutoFutex.C111_enters' depends on axioms: [propext, Classical.choice, Quot.sound] -/
#guard_msgs (whitespace := lax) in
#print axioms Verif.AutoFutex.C111_enters

/-- info: 'Verif.ManualFutex.C111_returns' depends on axioms: [propext, Classical.choice, Quot.sound] -/
#guard_msgs (whitespace := lax) in
#print axioms Verif.ManualFutex.C111_returns

/-- info: 'Verif.ManualFutex.C111_enters' depends on axioms: [propext, Classical.choice, Quot.sound] -/
#guard_msgs (whitespace := lax) in
#print axioms Verif.ManualFutex.C111_enters

/-- info: 'Verif.AutoSem.C111_returns' depends on axioms: [propext, Classical.choice, Quot.sound] -/
#guard_msgs (whitespace := lax) in
#print axioms Verif.AutoSem.C111_returns

/-- info: 'Verif.AutoSem.C111_enters' depends on axioms: [propext, Classical.choice, Quot.sound] -/
#guard_msgs (whitespace := lax) in
#print axioms Verif.AutoSem.C111_enters

/-- info: 'Verif.WinEvent.C111_returns' depends on axioms: [propext, Classical.choice, Quot.sound] -/
#guard_msgs (whitespace := lax) in
#print axioms Verif.WinEvent.C111_returns

/-- info: 'Verif.Monitor.C112_held' depends on axioms: [propext, Classical.choice, Quot.sound] -/
#guard_msgs (whitespace := lax) in
#print axioms Verif.Monitor.C112_held

/-- info: 'Verif.Monitor.C112_call' depends on axioms: [propext, Classical.choice, Quot.sound] -/
#guard_msgs (whitespace := lax) in
#print axioms Verif.Monitor.C112_call

/-- info: 'Verif.Monitor.C112_inside' depends on axioms: [propext, Classical.choice, Quot.sound] -/
#guard_msgs (whitespace := lax) in
#print axioms Verif.Monitor.C112_inside

/-- info: 'Verif.CvAny.C112_held' depends on axioms: [propext, Classical.choice, Quot.sound] -/
#guard_msgs (whitespace := lax) in
#print axioms Verif.CvAny.C112_held

/-- info: 'Verif.CvAny.C112_call' depends on axioms: [propext, Classical.choice, Quot.sound] -/
#guard_msgs (whitespace := lax) in
#print axioms Verif.CvAny.C112_call

/-- info: 'Verif.CvAny.C112_inside' depends on axioms: [propext, Classical.choice, Quot.sound] -/
#guard_msgs (whitespace := lax) in
#print axioms Verif.CvAny.C112_inside

/-- info: 'Verif.CondVarPosix.C112_call' depends on axioms: [propext, Classical.choice, Quot.sound] -/
#guard_msgs (whitespace := lax) in
#print axioms Verif.CondVarPosix.C112_call

/-- info: 'Verif.CondVarPosix.C112_inside' depends on axioms: [propext, Classical.choice, Quot.sound] -/
#guard_msgs (whitespace := lax) in
#print axioms Verif.CondVarPosix.C112_inside

/-- info: 'Verif.WinCv.C112_held' depends on axioms: [propext, Classical.choice, Quot.sound] -/
#guard_msgs (whitespace := lax) in
#print axioms Verif.WinCv.C112_held

/-- info: 'Verif.WinCv.C112_call' depends on axioms: [propext, Classical.choice, Quot.sound] -/
#guard_msgs (whitespace := lax) in
#print axioms Verif.WinCv.C112_call

/-- info: 'Verif.WinCv.C112_inside' depends on axioms: [propext, Classical.choice, Quot.sound] -/
#guard_msgs (whitespace := lax) in
#print axioms Verif.WinCv.C112_inside

/-- info: 'Verif.WinCvFail.C113_user_lock' depends on axioms: [propext, Classical.choice, Quot.sound] -/
#guard_msgs (whitespace := lax) in
#print axioms Verif.WinCvFail.C113_user_lock

/-- info: 'Verif.WinCvFail.C113_internal_mutex' depends on axioms: [propext, Classical.choice, Quot.sound] -/
#guard_msgs (whitespace := lax) in
#print axioms Verif.WinCvFail.C113_internal_mutex

/-- info: 'Verif.WinCvFail.C113_count_partial' depends on axioms: [propext, Classical.choice, Quot.sound] -/
#guard_msgs (whitespace := lax) in
#print axioms Verif.WinCvFail.C113_count_partial

/-- info: 'Verif.WinCvFail.C113_count_refuted' depends on axioms: [propext] -/
#guard_msgs (whitespace := lax) in
#print axioms Verif.WinCvFail.C113_count_refuted

/-- info: 'Verif.WinCvFail.C113_lost_notification_refuted' depends on axioms: [propext] -/
#guard_msgs (whitespace := lax) in
#print axioms Verif.WinCvFail.C113_lost_notification_refuted

/-- info: 'Verif.Spin.C114_lock_refuted' depends on axioms: [propext, Classical.choice, Quot.sound] -/
#guard_msgs (whitespace := lax) in
#print axioms Verif.Spin.C114_lock_refuted

/-- info: 'Verif.Spin.C114_lock_partial' depends on axioms: [propext, Classical.choice, Quot.sound] -/
#guard_msgs (whitespace := lax) in
#print axioms Verif.Spin.C114_lock_partial

/-- info: 'Verif.SharedSpin.C114_lock_refuted' depends on axioms: [propext, Classical.choice, Quot.sound] -/
#guard_msgs (whitespace := lax) in
#print axioms Verif.SharedSpin.C114_lock_refuted

/-- info: 'Verif.SharedSpin.C114_lock_shared_refuted' depends on axioms: [propext, Classical.choice, Quot.sound] -/
#guard_msgs (whitespace := lax) in
#print axioms Verif.SharedSpin.C114_lock_shared_refuted

/-- info: 'Verif.SharedSpin.C114_readers_refuted' depends on axioms: [propext, Classical.choice, Quot.sound] -/
#guard_msgs (whitespace := lax) in
#print axioms Verif.SharedSpin.C114_readers_refuted

/-- info: 'Verif.SharedSpin.C114_lock_partial' depends on axioms: [propext, Classical.choice, Quot.sound] -/
#guard_msgs (whitespace := lax) in
#print axioms Verif.SharedSpin.C114_lock_partial

/-- info: 'Verif.SharedSpin.C114_lock_shared_partial' depends on axioms: [propext, Classical.choice, Quot.sound] -/
#guard_msgs (whitespace := lax) in
#print axioms Verif.SharedSpin.C114_lock_shared_partial

/-- info: 'Verif.WinMutex.C114_lock_refuted' depends on axioms: [propext, Classical.choice, Quot.sound] -/
#guard_msgs (whitespace := lax) in
#print axioms Verif.WinMutex.C114_lock_refuted

/-- info: 'Verif.WinMutex.C114_lock_partial' depends on axioms: [propext, Classical.choice, Quot.sound] -/
#guard_msgs (whitespace := lax) in
#print axioms Verif.WinMutex.C114_lock_partial

/-- info: 'Verif.AutoFutex.C114_wait_refuted' depends on axioms: [propext, Classical.choice, Quot.sound] -/
#guard_msgs (whitespace := lax) in
#print axioms Verif.AutoFutex.C114_wait_refuted

/-- info: 'Verif.AutoFutex.C114_wait_partial' depends on axioms: [propext, Classical.choice, Quot.sound] -/
#guard_msgs (whitespace := lax) in
#print axioms Verif.AutoFutex.C114_wait_partial

/-- info: 'Verif.ManualFutex.C114_wait_refuted' depends on axioms: [propext, Classical.choice, Quot.sound] -/
#guard_msgs (whitespace := lax) in
#print axioms Verif.ManualFutex.C114_wait_refuted

/-- info: 'Verif.ManualFutex.C114_wait_partial' depends on axioms: [propext, Classical.choice, Quot.sound] -/
#guard_msgs (whitespace := lax) in
#print axioms Verif.ManualFutex.C114_wait_partial

/-- info: 'Verif.AutoSem.C114_event_refuted' depends on axioms: [propext, Classical.choice, Quot.sound] -/
#guard_msgs (whitespace := lax) in
#print axioms Verif.AutoSem.C114_event_refuted

/-- info: 'Verif.AutoSem.C114_event_partial' depends on axioms: [propext, Classical.choice, Quot.sound] -/
#guard_msgs (whitespace := lax) in
#print axioms Verif.AutoSem.C114_event_partial

/-- info: 'Verif.AutoSem.C114_event_calm_partial' depends on axioms: [propext, Classical.choice, Quot.sound] -/
#guard_msgs (whitespace := lax) in
#print axioms Verif.AutoSem.C114_event_calm_partial

/-- info: 'Verif.Monitor.C114_auto_event_refuted' depends on axioms: [propext, Classical.choice, Quot.sound] -/
#guard_msgs (whitespace := lax) in
#print axioms Verif.Monitor.C114_auto_event_refuted

/-- info: 'Verif.Monitor.C114_auto_event_partial' depends on axioms: [propext, Classical.choice, Quot.sound] -/
#guard_msgs (whitespace := lax) in
#print axioms Verif.Monitor.C114_auto_event_partial

/-- info: 'Verif.Monitor.C114_semaphore_refuted' depends on axioms: [propext, Classical.choice, Quot.sound] -/
#guard_msgs (whitespace := lax) in
#print axioms Verif.Monitor.C114_semaphore_refuted

/-- info: 'Verif.Monitor.C114_semaphore_partial' depends on axioms: [propext, Classical.choice, Quot.sound] -/
#guard_msgs (whitespace := lax) in
#print axioms Verif.Monitor.C114_semaphore_partial

/-- info: 'Verif.Monitor.C114_semaphore_calm_partial' depends on axioms: [propext, Classical.choice, Quot.sound] -/
#guard_msgs (whitespace := lax) in
#print axioms Verif.Monitor.C114_semaphore_calm_partial

/-- info: 'Verif.Monitor.C114_timed_mutex_refuted' depends on axioms: [propext, Classical.choice, Quot.sound] -/
#guard_msgs (whitespace := lax) in
#print axioms Verif.Monitor.C114_timed_mutex_refuted

/-- info: 'Verif.Monitor.C114_timed_mutex_partial' depends on axioms: [propext, Classical.choice, Quot.sound] -/
#guard_msgs (whitespace := lax) in
#print axioms Verif.Monitor.C114_timed_mutex_partial

/-- info: 'Verif.Monitor.C114_manual_event_refuted' depends on axioms: [propext, Classical.choice, Quot.sound] -/
#guard_msgs (whitespace := lax) in
#print axioms Verif.Monitor.C114_manual_event_refuted

/-- info: 'Verif.Monitor.C114_manual_event_mutex_refuted' depends on axioms: [propext, Classical.choice, Quot.sound] -/
#guard_msgs (whitespace := lax) in
#print axioms Verif.Monitor.C114_manual_event_mutex_refuted

/-- info: 'Verif.Monitor.C114_manual_event_partial' depends on axioms: [propext, Classical.choice, Quot.sound] -/
#guard_msgs (whitespace := lax) in
#print axioms Verif.Monitor.C114_manual_event_partial

/-- info: 'Verif.CvAny.C115_notify_returns' depends on axioms: [propext, Classical.choice, Quot.sound] -/
#guard_msgs (whitespace := lax) in
#print axioms Verif.CvAny.C115_notify_returns

/-- info: 'Verif.CvAny.C115_woken_returns' depends on axioms: [propext, Classical.choice, Quot.sound] -/
#guard_msgs (whitespace := lax) in
#print axioms Verif.CvAny.C115_woken_returns

/-- info: 'Verif.CvAny.C115_notify_all_partial' depends on axioms: [propext, Classical.choice, Quot.sound] -/
#guard_msgs (whitespace := lax) in
#print axioms Verif.CvAny.C115_notify_all_partial

/-- info: 'Verif.CvAny.C115_notify_all_refuted' depends on axioms: [propext, Classical.choice, Quot.sound] -/
#guard_msgs (whitespace := lax) in
#print axioms Verif.CvAny.C115_notify_all_refuted

/-- info: 'Verif.WinCv.C115_notify_returns' depends on axioms: [propext, Classical.choice, Quot.sound] -/
#guard_msgs (whitespace := lax) in
#print axioms Verif.WinCv.C115_notify_returns

/-- info: 'Verif.WinCv.C115_woken_returns' depends on axioms: [propext, Classical.choice, Quot.sound] -/
#guard_msgs (whitespace := lax) in
#print axioms Verif.WinCv.C115_woken_returns

/-- info: 'Verif.WinCv.C115_notify_all' depends on axioms: [propext, Classical.choice, Quot.sound] -/
#guard_msgs (whitespace := lax) in
#print axioms Verif.WinCv.C115_notify_all

/-- info: 'Verif.CondVarPosix.C115_woken_returns' depends on axioms: [propext, Classical.choice, Quot.sound] -/
#guard_msgs (whitespace := lax) in
#print axioms Verif.CondVarPosix.C115_woken_returns

/-- info: 'Verif.CondVarPosix.C115_notify_all_partial' depends on axioms: [propext, Classical.choice, Quot.sound] -/
#guard_msgs (whitespace := lax) in
#print axioms Verif.CondVarPosix.C115_notify_all_partial

/-- info: 'Verif.CondVarPosix.C115_notify_all_refuted_user_clock' depends on axioms: [propext, Classical.choice, Quot.sound] -/
#guard_msgs (whitespace := lax) in
#print axioms Verif.CondVarPosix.C115_notify_all_refuted_user_clock

/-- info: 'Verif.CondVarPosix.C115_notify_all_refuted_interrupted' depends on axioms: [propext, Classical.choice, Quot.sound] -/
#guard_msgs (whitespace := lax) in
#print axioms Verif.CondVarPosix.C115_notify_all_refuted_interrupted

/-- info: 'Verif.TimerInit.C116_init_ends' depends on axioms: [propext, Classical.choice, Quot.sound] -/
#guard_msgs (whitespace := lax) in
#print axioms Verif.TimerInit.C116_init_ends

/-- info: 'Verif.TimerInit.C116_call_partial' depends on axioms: [propext, Classical.choice, Quot.sound] -/
#guard_msgs (whitespace := lax) in
#print axioms Verif.TimerInit.C116_call_partial

/-- info: 'Verif.TimerInit.C116_call_refuted' depends on axioms: [propext, Classical.choice, Quot.sound] -/
#guard_msgs (whitespace := lax) in
#print axioms Verif.TimerInit.C116_call_refuted

/-- info: 'Verif.TssOnce.C116_call_ends' depends on axioms: [propext, Classical.choice, Quot.sound] -/
#guard_msgs (whitespace := lax) in
#print axioms Verif.TssOnce.C116_call_ends

/-- info: 'Verif.TssOnce.C116_init_ends' depends on axioms: [propext, Classical.choice, Quot.sound] -/
#guard_msgs (whitespace := lax) in
#print axioms Verif.TssOnce.C116_init_ends

/-- info: 'Verif.WinGetEvent.C116_call_ends' depends on axioms: [propext, Classical.choice, Quot.sound] -/
#guard_msgs (whitespace := lax) in
#print axioms Verif.WinGetEvent.C116_call_ends

/-- info: 'Verif.CvAny.C117_timed_wait' depends on axioms: [propext, Classical.choice, Quot.sound] -/
#guard_msgs (whitespace := lax) in
#print axioms Verif.CvAny.C117_timed_wait

/-- info: 'Verif.CondVarPosix.C117_timed_wait' depends on axioms: [propext, Classical.choice, Quot.sound] -/
#guard_msgs (whitespace := lax) in
#print axioms Verif.CondVarPosix.C117_timed_wait

/-- info: 'Verif.WinCv.C117_timed_wait' depends on axioms: [propext, Classical.choice, Quot.sound] -/
#guard_msgs (whitespace := lax) in
#print axioms Verif.WinCv.C117_timed_wait

/-- info: 'Verif.Monitor.C118_timed_wait' depends on axioms: [propext, Classical.choice, Quot.sound] -/
#guard_msgs (whitespace := lax) in
#print axioms Verif.Monitor.C118_timed_wait

/-- info: 'Verif.AutoSem.C118_timed_wait' depends on axioms: [propext, Classical.choice, Quot.sound] -/
#guard_msgs (whitespace := lax) in
#print axioms Verif.AutoSem.C118_timed_wait

/-- info: 'Verif.ManualFutex.C118_timed_wait' depends on axioms: [propext, Classical.choice, Quot.sound] -/
#guard_msgs (whitespace := lax) in
#print axioms Verif.ManualFutex.C118_timed_wait

/-- info: 'Verif.AutoFutex.C119_timed_wait_refuted' depends on axioms: [propext, Classical.choice, Quot.sound] -/
#guard_msgs (whitespace := lax) in
#print axioms Verif.AutoFutex.C119_timed_wait_refuted

/-- info: 'Verif.AutoFutex.C119_timed_wait_partial' depends on axioms: [propext, Classical.choice, Quot.sound] -/
#guard_msgs (whitespace := lax) in
#print axioms Verif.AutoFutex.C119_timed_wait_partial

/-- info: 'Verif.WinMutex.C119_timed_lock_refuted' depends on axioms: [propext, Classical.choice, Quot.sound] -/
#guard_msgs (whitespace := lax) in
#print axioms Verif.WinMutex.C119_timed_lock_refuted

/-- info: 'Verif.WinMutex.C119_timed_lock_partial' depends on axioms: [propext, Classical.choice, Quot.sound] -/
#guard_msgs (whitespace := lax) in
#print axioms Verif.WinMutex.C119_timed_lock_partial

/-- info: 'Verif.WinMutex.C12_failure_leaves_no_trace' depends on axioms: [propext, Classical.choice, Quot.sound] -/
#guard_msgs (whitespace := lax) in
#print axioms Verif.WinMutex.C12_failure_leaves_no_trace

/-- info: 'Verif.WinMutex.C12_quiescent' depends on axioms: [propext, Classical.choice, Quot.sound] -/
#guard_msgs (whitespace := lax) in
#print axioms Verif.WinMutex.C12_quiescent

/-- info: 'Verif.WinMutex.C12_no_early_failure' depends on axioms: [propext, Quot.sound] -/
#guard_msgs (whitespace := lax) in
#print axioms Verif.WinMutex.C12_no_early_failure

/-- info: 'Verif.WinMutex.C12_return_values' depends on axioms: [propext, Classical.choice, Quot.sound] -/
#guard_msgs (whitespace := lax) in
#print axioms Verif.WinMutex.C12_return_values

/-- info: 'Verif.CvAny.C120_clocked_wait' depends on axioms: [propext, Classical.choice, Quot.sound] -/
#guard_msgs (whitespace := lax) in
#print axioms Verif.CvAny.C120_clocked_wait

/-- info: 'Verif.CondVarPosix.C120_clocked_wait' depends on axioms: [propext, Classical.choice, Quot.sound] -/
#guard_msgs (whitespace := lax) in
#print axioms Verif.CondVarPosix.C120_clocked_wait

/-- info: 'Verif.CvAny.C120_stopped_clock' depends on axioms: [propext, Classical.choice, Quot.sound] -/
#guard_msgs (whitespace := lax) in
#print axioms Verif.CvAny.C120_stopped_clock

/-- info: 'Verif.CondVarPosix.C120_stopped_clock' depends on axioms: [propext, Classical.choice, Quot.sound] -/
#guard_msgs (whitespace := lax) in
#print axioms Verif.CondVarPosix.C120_stopped_clock

/-- info: 'Verif.LocksThrow.C121_accounting' depends on axioms: [propext, Quot.sound] -/
#guard_msgs (whitespace := lax) in
#print axioms Verif.LocksThrow.C121_accounting

/-- info: 'Verif.LocksThrow.C121_none_lost' depends on axioms: [propext, Classical.choice, Quot.sound] -/
#guard_msgs (whitespace := lax) in
#print axioms Verif.LocksThrow.C121_none_lost

/-- info: 'Verif.LocksThrow.C121_terminated_only' depends on axioms: [propext, Quot.sound] -/
#guard_msgs (whitespace := lax) in
#print axioms Verif.LocksThrow.C121_terminated_only

/-- info: 'Verif.LocksThrow.C121_terminated' depends on axioms: [propext, Quot.sound] -/
#guard_msgs (whitespace := lax) in
#print axioms Verif.LocksThrow.C121_terminated

/-- info: 'Verif.LocksThrow.C121_lost_before_cpp11' depends on axioms: [propext, Quot.sound] -/
#guard_msgs (whitespace := lax) in
#print axioms Verif.LocksThrow.C121_lost_before_cpp11

/-- info: 'Verif.LocksThrow.C121_no_null_dereference' depends on axioms: [propext, Quot.sound] -/
#guard_msgs (whitespace := lax) in
#print axioms Verif.LocksThrow.C121_no_null_dereference

/-- info: 'Verif.GuardsThrow.C122_cut_short' depends on axioms: [propext, Quot.sound] -/
#guard_msgs (whitespace := lax) in
#print axioms Verif.GuardsThrow.C122_cut_short

/-- info: 'Verif.GuardsThrow.C122_balanced' depends on axioms: [propext, Classical.choice, Quot.sound] -/
#guard_msgs (whitespace := lax) in
#print axioms Verif.GuardsThrow.C122_balanced

/-- info: 'Verif.GuardsThrow.C122_terminates' depends on axioms: [propext] -/
#guard_msgs (whitespace := lax) in
#print axioms Verif.GuardsThrow.C122_terminates

/-- info: 'Verif.GuardsThrow.C122_otherwise_same' depends on axioms: [propext, Quot.sound] -/
#guard_msgs (whitespace := lax) in
#print axioms Verif.GuardsThrow.C122_otherwise_same

/-- info: 'Verif.WinMutex.C13_refuted' depends on axioms: [propext, Quot.sound] -/
#guard_msgs (whitespace := lax) in
#print axioms Verif.WinMutex.C13_refuted

/-- info: 'Verif.WinMutex.C13_refuted_woken' depends on axioms: [propext, Quot.sound] -/
#guard_msgs (whitespace := lax) in
#print axioms Verif.WinMutex.C13_refuted_woken

/-- info: 'Verif.WinMutex.C13_happens_before_partial' depends on axioms: [propext, Quot.sound] -/
#guard_msgs (whitespace := lax) in
#print axioms Verif.WinMutex.C13_happens_before_partial

/-- info: 'Verif.WinMutex.C13_items' depends on axioms: [propext, Classical.choice, Quot.sound] -/
#guard_msgs (whitespace := lax) in
#print axioms Verif.WinMutex.C13_items

/-- info: 'Verif.Monitor.C14_mutual_exclusion' depends on axioms: [propext, Quot.sound] -/
#guard_msgs (whitespace := lax) in
#print axioms Verif.Monitor.C14_mutual_exclusion

/-- info: 'Verif.Monitor.C14_refines_lock' depends on axioms: [propext, Quot.sound] -/
#guard_msgs (whitespace := lax) in
#print axioms Verif.Monitor.C14_refines_lock

/-- info: 'Verif.Monitor.C15_no_lost_wakeup' depends on axioms: [propext, Classical.choice, Quot.sound] -/
#guard_msgs (whitespace := lax) in
#print axioms Verif.Monitor.C15_no_lost_wakeup

/-- info: 'Verif.Monitor.C15_progress' depends on axioms: [propext, Classical.choice, Quot.sound] -/
#guard_msgs (whitespace := lax) in
#print axioms Verif.Monitor.C15_progress

/-- info: 'Verif.Monitor.C16_timed_failure' depends on axioms: [propext, Quot.sound] -/
#guard_msgs (whitespace := lax) in
#print axioms Verif.Monitor.C16_timed_failure

/-- info: 'Verif.Monitor.C16_try_failure' depends on axioms: [propext, Quot.sound] -/
#guard_msgs (whitespace := lax) in
#print axioms Verif.Monitor.C16_try_failure

/-- info: 'Verif.AutoFutex.C17_one_release_per_post' depends on axioms: [propext, Classical.choice, Quot.sound] -/
#guard_msgs (whitespace := lax) in
#print axioms Verif.AutoFutex.C17_one_release_per_post

/-- info: 'Verif.AutoFutex.C18_no_lost_wakeup' depends on axioms: [propext, Classical.choice, Quot.sound] -/
#guard_msgs (whitespace := lax) in
#print axioms Verif.AutoFutex.C18_no_lost_wakeup

/-- info: 'Verif.AutoFutex.C18_every_post_is_carried' depends on axioms: [propext, Classical.choice, Quot.sound] -/
#guard_msgs (whitespace := lax) in
#print axioms Verif.AutoFutex.C18_every_post_is_carried

/-- info: 'Verif.AutoFutex.C18_quiescent' depends on axioms: [propext, Classical.choice, Quot.sound] -/
#guard_msgs (whitespace := lax) in
#print axioms Verif.AutoFutex.C18_quiescent

/-- info: 'Verif.AutoFutex.C18_post_takes_effect' depends on axioms: [propext, Classical.choice, Quot.sound] -/
#guard_msgs (whitespace := lax) in
#print axioms Verif.AutoFutex.C18_post_takes_effect

/-- info: 'Verif.AutoFutex.C18_carrier_returns' depends on axioms: [propext, Classical.choice, Quot.sound] -/
#guard_msgs (whitespace := lax) in
#print axioms Verif.AutoFutex.C18_carrier_returns

/-- info: 'Verif.AutoFutex.C19_remembers_one_post' depends on axioms: [propext, Classical.choice, Quot.sound] -/
#guard_msgs (whitespace := lax) in
#print axioms Verif.AutoFutex.C19_remembers_one_post

/-- info: 'Verif.AutoFutex.C20_failed_wait_consumes_nothing' depends on axioms: [propext, Classical.choice, Quot.sound] -/
#guard_msgs (whitespace := lax) in
#print axioms Verif.AutoFutex.C20_failed_wait_consumes_nothing

/-- info: 'Verif.AutoFutex.C20_timeout_takes_available_post' depends on axioms: [propext, Classical.choice, Quot.sound] -/
#guard_msgs (whitespace := lax) in
#print axioms Verif.AutoFutex.C20_timeout_takes_available_post

/-- info: 'Verif.AutoFutex.C20_no_failure_while_signalled' depends on axioms: [propext, Quot.sound] -/
#guard_msgs (whitespace := lax) in
#print axioms Verif.AutoFutex.C20_no_failure_while_signalled

/-- info: 'Verif.AutoFutex.C20_no_early_failure' depends on axioms: [propext, Quot.sound] -/
#guard_msgs (whitespace := lax) in
#print axioms Verif.AutoFutex.C20_no_early_failure

/-- info: 'Verif.AutoFutex.C21_refuted' depends on axioms: [propext, Classical.choice, Quot.sound] -/
#guard_msgs (whitespace := lax) in
#print axioms Verif.AutoFutex.C21_refuted

/-- info: 'Verif.AutoFutex.C21_all_released_partial' depends on axioms: [propext, Classical.choice, Quot.sound] -/
#guard_msgs (whitespace := lax) in
#print axioms Verif.AutoFutex.C21_all_released_partial

/-- info: 'Verif.AutoFutex.C22_refuted' depends on axioms: [propext, Quot.sound] -/
#guard_msgs (whitespace := lax) in
#print axioms Verif.AutoFutex.C22_refuted

/-- info: 'Verif.AutoFutex.C22_effective_post_publishes_partial' depends on axioms: [propext, Quot.sound] -/
#guard_msgs (whitespace := lax) in
#print axioms Verif.AutoFutex.C22_effective_post_publishes_partial

/-- info: 'Verif.AutoFutex.C22_items' depends on axioms: [propext, Classical.choice, Quot.sound] -/
#guard_msgs (whitespace := lax) in
#print axioms Verif.AutoFutex.C22_items

/-- info: 'Verif.AutoFutex.C23_refuted' depends on axioms: [propext, Quot.sound] -/
#guard_msgs (whitespace := lax) in
#print axioms Verif.AutoFutex.C23_refuted

/-- info: 'Verif.AutoFutex.C23_counter_partial' depends on axioms: [propext, Classical.choice, Quot.sound] -/
#guard_msgs (whitespace := lax) in
#print axioms Verif.AutoFutex.C23_counter_partial

/-- info: 'Verif.AutoSem.C24_at_most_one_per_post' depends on axioms: [propext, Classical.choice, Quot.sound] -/
#guard_msgs (whitespace := lax) in
#print axioms Verif.AutoSem.C24_at_most_one_per_post

/-- info: 'Verif.AutoSem.C24_state_range' depends on axioms: [propext, Classical.choice, Quot.sound] -/
#guard_msgs (whitespace := lax) in
#print axioms Verif.AutoSem.C24_state_range

/-- info: 'Verif.AutoSem.C24_failure_justified' depends on axioms: [propext, Quot.sound] -/
#guard_msgs (whitespace := lax) in
#print axioms Verif.AutoSem.C24_failure_justified

/-- info: 'Verif.AutoSem.C25_no_lost_wakeup' depends on axioms: [propext, Quot.sound] -/
#guard_msgs (whitespace := lax) in
#print axioms Verif.AutoSem.C25_no_lost_wakeup

/-- info: 'Verif.AutoSem.C25_post_not_swallowed' depends on axioms: [propext, Classical.choice, Quot.sound] -/
#guard_msgs (whitespace := lax) in
#print axioms Verif.AutoSem.C25_post_not_swallowed

/-- info: 'Verif.AutoSem.C25_quiescent' depends on axioms: [propext, Classical.choice, Quot.sound] -/
#guard_msgs (whitespace := lax) in
#print axioms Verif.AutoSem.C25_quiescent

/-- info: 'Verif.AutoSem.C25_runs_end' depends on axioms: [propext, Quot.sound] -/
#guard_msgs (whitespace := lax) in
#print axioms Verif.AutoSem.C25_runs_end

/-- info: 'Verif.AutoSem.C25_post_remembered' depends on axioms: [propext, Classical.choice, Quot.sound] -/
#guard_msgs (whitespace := lax) in
#print axioms Verif.AutoSem.C25_post_remembered

/-- info: 'Verif.AutoSem.C26_refuted' depends on axioms: [propext] -/
#guard_msgs (whitespace := lax) in
#print axioms Verif.AutoSem.C26_refuted

/-- info: 'Verif.AutoSem.C26_remembers_partial' depends on axioms: [propext, Classical.choice, Quot.sound] -/
#guard_msgs (whitespace := lax) in
#print axioms Verif.AutoSem.C26_remembers_partial

/-- info: 'Verif.AutoSem.C26_at_most_one_partial' depends on axioms: [propext, Classical.choice, Quot.sound] -/
#guard_msgs (whitespace := lax) in
#print axioms Verif.AutoSem.C26_at_most_one_partial

/-- info: 'Verif.Monitor.C27_refines_event' depends on axioms: [propext, Quot.sound] -/
#guard_msgs (whitespace := lax) in
#print axioms Verif.Monitor.C27_refines_event

/-- info: 'Verif.Monitor.C27_no_lost_wakeup_partial' depends on axioms: [propext, Classical.choice, Quot.sound] -/
#guard_msgs (whitespace := lax) in
#print axioms Verif.Monitor.C27_no_lost_wakeup_partial

/-- info: 'Verif.Monitor.C27_progress_partial' depends on axioms: [propext, Classical.choice, Quot.sound] -/
#guard_msgs (whitespace := lax) in
#print axioms Verif.Monitor.C27_progress_partial

/-- info: 'Verif.Monitor.C27_refuted' depends on axioms: [propext] -/
#guard_msgs (whitespace := lax) in
#print axioms Verif.Monitor.C27_refuted

/-- info: 'Verif.Monitor.C28_refines_flag' depends on axioms: [propext, Quot.sound] -/
#guard_msgs (whitespace := lax) in
#print axioms Verif.Monitor.C28_refines_flag

/-- info: 'Verif.Monitor.C28_observed' depends on axioms: [propext, Quot.sound] -/
#guard_msgs (whitespace := lax) in
#print axioms Verif.Monitor.C28_observed

/-- info: 'Verif.Monitor.C28_no_lost_wakeup_partial' depends on axioms: [propext, Classical.choice, Quot.sound] -/
#guard_msgs (whitespace := lax) in
#print axioms Verif.Monitor.C28_no_lost_wakeup_partial

/-- info: 'Verif.Monitor.C28_progress_partial' depends on axioms: [propext, Classical.choice, Quot.sound] -/
#guard_msgs (whitespace := lax) in
#print axioms Verif.Monitor.C28_progress_partial

/-- info: 'Verif.Monitor.C28_refuted' depends on axioms: [propext] -/
#guard_msgs (whitespace := lax) in
#print axioms Verif.Monitor.C28_refuted

/-- info: 'Verif.ManualFutex.C29_no_lost_wakeup' depends on axioms: [propext, Classical.choice, Quot.sound] -/
#guard_msgs (whitespace := lax) in
#print axioms Verif.ManualFutex.C29_no_lost_wakeup

/-- info: 'Verif.ManualFutex.C29_set_releases_all' depends on axioms: [propext, Classical.choice, Quot.sound] -/
#guard_msgs (whitespace := lax) in
#print axioms Verif.ManualFutex.C29_set_releases_all

/-- info: 'Verif.ManualFutex.C29_waiter_returns' depends on axioms: [propext, Classical.choice, Quot.sound] -/
#guard_msgs (whitespace := lax) in
#print axioms Verif.ManualFutex.C29_waiter_returns

/-- info: 'Verif.ManualFutex.C30_success_implies_set' depends on axioms: [propext, Classical.choice, Quot.sound] -/
#guard_msgs (whitespace := lax) in
#print axioms Verif.ManualFutex.C30_success_implies_set

/-- info: 'Verif.ManualFutex.C30_word_exact' depends on axioms: [propext, Classical.choice, Quot.sound] -/
#guard_msgs (whitespace := lax) in
#print axioms Verif.ManualFutex.C30_word_exact

/-- info: 'Verif.ManualFutex.C30_try_wait_exact' depends on axioms: [propext, Classical.choice, Quot.sound] -/
#guard_msgs (whitespace := lax) in
#print axioms Verif.ManualFutex.C30_try_wait_exact

/-- info: 'Verif.ManualFutex.C30_no_early_failure' depends on axioms: [propext, Quot.sound] -/
#guard_msgs (whitespace := lax) in
#print axioms Verif.ManualFutex.C30_no_early_failure

/-- info: 'Verif.ManualFutex.C30_wait_on_set_event' depends on axioms: [propext, Classical.choice, Quot.sound] -/
#guard_msgs (whitespace := lax) in
#print axioms Verif.ManualFutex.C30_wait_on_set_event

/-- info: 'Verif.ManualFutex.C31_set_publishes' depends on axioms: [propext, Quot.sound] -/
#guard_msgs (whitespace := lax) in
#print axioms Verif.ManualFutex.C31_set_publishes

/-- info: 'Verif.ManualFutex.C31_items' depends on axioms: [propext, Classical.choice, Quot.sound] -/
#guard_msgs (whitespace := lax) in
#print axioms Verif.ManualFutex.C31_items

/-- info: 'Verif.OsSem.C32_os_conservation' depends on axioms: [propext, Classical.choice, Quot.sound] -/
#guard_msgs (whitespace := lax) in
#print axioms Verif.OsSem.C32_os_conservation

/-- info: 'Verif.OsSem.C32_os_never_negative' depends on axioms: [propext, Classical.choice, Quot.sound] -/
#guard_msgs (whitespace := lax) in
#print axioms Verif.OsSem.C32_os_never_negative

/-- info: 'Verif.Monitor.C32_emulation_refines_counter_partial' depends on axioms: [propext, Classical.choice, Quot.sound] -/
#guard_msgs (whitespace := lax) in
#print axioms Verif.Monitor.C32_emulation_refines_counter_partial

/-- info: 'Verif.Monitor.C32_emulation_conservation_partial' depends on axioms: [propext, Classical.choice, Quot.sound] -/
#guard_msgs (whitespace := lax) in
#print axioms Verif.Monitor.C32_emulation_conservation_partial

/-- info: 'Verif.Monitor.C32_emulation_never_negative_partial' depends on axioms: [propext, Classical.choice, Quot.sound] -/
#guard_msgs (whitespace := lax) in
#print axioms Verif.Monitor.C32_emulation_never_negative_partial

/-- info: 'Verif.Monitor.C32_emulation_refuted' depends on axioms: [propext] -/
#guard_msgs (whitespace := lax) in
#print axioms Verif.Monitor.C32_emulation_refuted

/-- info: 'Verif.OsSem.C32_os_results' depends on axioms: [propext, Classical.choice, Quot.sound] -/
#guard_msgs (whitespace := lax) in
#print axioms Verif.OsSem.C32_os_results

/-- info: 'Verif.OsSem.C32_os_success_possible' depends on axioms: [propext, Quot.sound] -/
#guard_msgs (whitespace := lax) in
#print axioms Verif.OsSem.C32_os_success_possible

/-- info: 'Verif.OsSem.C32_os_failures' depends on axioms: [propext] -/
#guard_msgs (whitespace := lax) in
#print axioms Verif.OsSem.C32_os_failures

/-- info: 'Verif.OsSem.C32_os_failure_possible' depends on axioms: [propext, Quot.sound] -/
#guard_msgs (whitespace := lax) in
#print axioms Verif.OsSem.C32_os_failure_possible

/-- info: 'Verif.Monitor.C33_no_lost_wakeup_partial' depends on axioms: [propext, Classical.choice, Quot.sound] -/
#guard_msgs (whitespace := lax) in
#print axioms Verif.Monitor.C33_no_lost_wakeup_partial

/-- info: 'Verif.Monitor.C33_progress_partial' depends on axioms: [propext, Classical.choice, Quot.sound] -/
#guard_msgs (whitespace := lax) in
#print axioms Verif.Monitor.C33_progress_partial

/-- info: 'Verif.Monitor.C33_refuted' depends on axioms: [propext] -/
#guard_msgs (whitespace := lax) in
#print axioms Verif.Monitor.C33_refuted

/-- info: 'Verif.WinCv.C34_total_count' depends on axioms: [propext, Classical.choice, Quot.sound] -/
#guard_msgs (whitespace := lax) in
#print axioms Verif.WinCv.C34_total_count

/-- info: 'Verif.WinCv.C34_node_counts' depends on axioms: [propext, Classical.choice, Quot.sound] -/
#guard_msgs (whitespace := lax) in
#print axioms Verif.WinCv.C34_node_counts

/-- info: 'Verif.WinCv.C35_no_lost_wakeup' depends on axioms: [propext, Classical.choice, Quot.sound] -/
#guard_msgs (whitespace := lax) in
#print axioms Verif.WinCv.C35_no_lost_wakeup

/-- info: 'Verif.WinCv.C35_runs_end' depends on axioms: [propext, Classical.choice, Quot.sound] -/
#guard_msgs (whitespace := lax) in
#print axioms Verif.WinCv.C35_runs_end

/-- info: 'Verif.WinCv.C35_quiescent' depends on axioms: [propext, Classical.choice, Quot.sound] -/
#guard_msgs (whitespace := lax) in
#print axioms Verif.WinCv.C35_quiescent

/-- info: 'Verif.WinCv.C36_no_stealing' depends on axioms: [propext, Classical.choice, Quot.sound] -/
#guard_msgs (whitespace := lax) in
#print axioms Verif.WinCv.C36_no_stealing

/-- info: 'Verif.WinCv.C37_units_conserved' depends on axioms: [propext, Classical.choice, Quot.sound] -/
#guard_msgs (whitespace := lax) in
#print axioms Verif.WinCv.C37_units_conserved

/-- info: 'Verif.WinCv.C37_return_units' depends on axioms: [propext, Classical.choice, Quot.sound] -/
#guard_msgs (whitespace := lax) in
#print axioms Verif.WinCv.C37_return_units

/-- info: 'Verif.WinCv.C37_notify_grants' depends on axioms: [propext, Classical.choice, Quot.sound] -/
#guard_msgs (whitespace := lax) in
#print axioms Verif.WinCv.C37_notify_grants

/-- info: 'Verif.WinCv.C37_notify_skip' depends on axioms: [propext, Classical.choice, Quot.sound] -/
#guard_msgs (whitespace := lax) in
#print axioms Verif.WinCv.C37_notify_skip

/-- info: 'Verif.WinCv.C37_units_issued' depends on axioms: [propext, Classical.choice, Quot.sound] -/
#guard_msgs (whitespace := lax) in
#print axioms Verif.WinCv.C37_units_issued

/-- info: 'Verif.WinCv.C37_loop_ends' depends on axioms: [propext, Classical.choice, Quot.sound] -/
#guard_msgs (whitespace := lax) in
#print axioms Verif.WinCv.C37_loop_ends

/-- info: 'Verif.WinCv.C37_wait_results' depends on axioms: [propext, Quot.sound] -/
#guard_msgs (whitespace := lax) in
#print axioms Verif.WinCv.C37_wait_results

/-- info: 'Verif.WinCv.C38_lock_held' depends on axioms: [propext, Classical.choice, Quot.sound] -/
#guard_msgs (whitespace := lax) in
#print axioms Verif.WinCv.C38_lock_held

/-- info: 'Verif.WinCv.C38_unlock_once' depends on axioms: [propext, Classical.choice, Quot.sound] -/
#guard_msgs (whitespace := lax) in
#print axioms Verif.WinCv.C38_unlock_once

/-- info: 'Verif.WinCv.C38_lock_during' depends on axioms: [propext, Classical.choice, Quot.sound] -/
#guard_msgs (whitespace := lax) in
#print axioms Verif.WinCv.C38_lock_during

/-- info: 'Verif.WinCv.C38_failure_keeps_state' depends on axioms: [propext, Quot.sound] -/
#guard_msgs (whitespace := lax) in
#print axioms Verif.WinCv.C38_failure_keeps_state

/-- info: 'Verif.CvAny.C39_refuted' depends on axioms: [propext] -/
#guard_msgs (whitespace := lax) in
#print axioms Verif.CvAny.C39_refuted

/-- info: 'Verif.CvAny.C39_no_lost_notification_partial' depends on axioms: [propext, Quot.sound] -/
#guard_msgs (whitespace := lax) in
#print axioms Verif.CvAny.C39_no_lost_notification_partial

/-- info: 'Verif.CvAny.C39_wakes_sleepers' depends on axioms: [propext, Quot.sound] -/
#guard_msgs (whitespace := lax) in
#print axioms Verif.CvAny.C39_wakes_sleepers

/-- info: 'Verif.CvAny.C39_notify_result' depends on axioms: [propext, Quot.sound] -/
#guard_msgs (whitespace := lax) in
#print axioms Verif.CvAny.C39_notify_result

/-- info: 'Verif.CvAny.C40_lock_held' depends on axioms: [propext, Quot.sound] -/
#guard_msgs (whitespace := lax) in
#print axioms Verif.CvAny.C40_lock_held

/-- info: 'Verif.CvAny.C40_exclusive' depends on axioms: [propext, Quot.sound] -/
#guard_msgs (whitespace := lax) in
#print axioms Verif.CvAny.C40_exclusive

/-- info: 'Verif.CvAny.C40_internal_released' depends on axioms: [propext, Quot.sound] -/
#guard_msgs (whitespace := lax) in
#print axioms Verif.CvAny.C40_internal_released

/-- info: 'Verif.CvAny.C40_no_deadlock' depends on axioms: [propext, Quot.sound] -/
#guard_msgs (whitespace := lax) in
#print axioms Verif.CvAny.C40_no_deadlock

/-- info: 'Verif.CvAny.C40_runs_end' depends on axioms: [propext, Quot.sound] -/
#guard_msgs (whitespace := lax) in
#print axioms Verif.CvAny.C40_runs_end

/-- info: 'Verif.CvAny.C40_wait_results' depends on axioms: [propext, Classical.choice, Quot.sound] -/
#guard_msgs (whitespace := lax) in
#print axioms Verif.CvAny.C40_wait_results

/-- info: 'Verif.PredLoop.C41_returns_last_predicate' depends on axioms: [propext, Quot.sound] -/
#guard_msgs (whitespace := lax) in
#print axioms Verif.PredLoop.C41_returns_last_predicate

/-- info: 'Verif.PredLoop.C41_false_after_timeout' depends on axioms: [propext, Quot.sound] -/
#guard_msgs (whitespace := lax) in
#print axioms Verif.PredLoop.C41_false_after_timeout

/-- info: 'Verif.PredLoop.C41_untimed_true' depends on axioms: [propext, Quot.sound] -/
#guard_msgs (whitespace := lax) in
#print axioms Verif.PredLoop.C41_untimed_true

/-- info: 'Verif.PredLoop.C41_true_ends' depends on axioms: [propext, Quot.sound] -/
#guard_msgs (whitespace := lax) in
#print axioms Verif.PredLoop.C41_true_ends

/-- info: 'Verif.PredLoop.C41_waits_when_false' depends on axioms: [propext, Quot.sound] -/
#guard_msgs (whitespace := lax) in
#print axioms Verif.PredLoop.C41_waits_when_false

/-- info: 'Verif.PredLoop.C41_exceptions' depends on axioms: [propext, Quot.sound] -/
#guard_msgs (whitespace := lax) in
#print axioms Verif.PredLoop.C41_exceptions

/-- info: 'Verif.PredLoop.C42_refuted' depends on axioms: [propext, Quot.sound] -/
#guard_msgs (whitespace := lax) in
#print axioms Verif.PredLoop.C42_refuted

/-- info: 'Verif.PredLoop.C42_one_timeout_partial' depends on axioms: [propext, Quot.sound] -/
#guard_msgs (whitespace := lax) in
#print axioms Verif.PredLoop.C42_one_timeout_partial

/-- info: 'Verif.PredLoop.C42_absolute' depends on axioms: [propext, Quot.sound] -/
#guard_msgs (whitespace := lax) in
#print axioms Verif.PredLoop.C42_absolute

/-- info: 'Verif.Time.C43_add_exact_partial' depends on axioms: [propext, Classical.choice, Quot.sound] -/
#guard_msgs (whitespace := lax) in
#print axioms Verif.Time.C43_add_exact_partial

/-- info: 'Verif.Time.C43_sub_exact_partial' depends on axioms: [propext, Classical.choice, Quot.sound] -/
#guard_msgs (whitespace := lax) in
#print axioms Verif.Time.C43_sub_exact_partial

/-- info: 'Verif.Time.C43_of_duration_partial' depends on axioms: [propext, Classical.choice, Quot.sound] -/
#guard_msgs (whitespace := lax) in
#print axioms Verif.Time.C43_of_duration_partial

/-- info: 'Verif.Time.C43_refuted' depends on axioms: [propext, Classical.choice, Quot.sound] -/
#guard_msgs (whitespace := lax) in
#print axioms Verif.Time.C43_refuted

/-- info: 'Verif.Time.C43_of_duration_refuted' depends on axioms: [propext, Classical.choice, Quot.sound] -/
#guard_msgs (whitespace := lax) in
#print axioms Verif.Time.C43_of_duration_refuted

/-- info: 'Verif.Time.C43_overflow_refuted' depends on axioms: [propext, Classical.choice, Quot.sound] -/
#guard_msgs (whitespace := lax) in
#print axioms Verif.Time.C43_overflow_refuted

/-- info: 'Verif.Time.C44_difference_exact' depends on axioms: [propext, Classical.choice, Quot.sound] -/
#guard_msgs (whitespace := lax) in
#print axioms Verif.Time.C44_difference_exact

/-- info: 'Verif.Time.C44_inverse_partial' depends on axioms: [propext, Classical.choice, Quot.sound] -/
#guard_msgs (whitespace := lax) in
#print axioms Verif.Time.C44_inverse_partial

/-- info: 'Verif.Time.C44_refuted' does not depend on any axioms -/
#guard_msgs (whitespace := lax) in
#print axioms Verif.Time.C44_refuted

/-- info: 'Verif.UserClock.C45_user_clock_positive' depends on axioms: [propext, Quot.sound] -/
#guard_msgs (whitespace := lax) in
#print axioms Verif.UserClock.C45_user_clock_positive

/-- info: 'Verif.UserClock.C45_user_clock_refuted' depends on axioms: [propext, Classical.choice, Quot.sound] -/
#guard_msgs (whitespace := lax) in
#print axioms Verif.UserClock.C45_user_clock_refuted

/-- info: 'Verif.Time.C45_no_blocking_partial' depends on axioms: [propext, Classical.choice, Quot.sound] -/
#guard_msgs (whitespace := lax) in
#print axioms Verif.Time.C45_no_blocking_partial

/-- info: 'Verif.Time.C45_refuted' depends on axioms: [propext, Classical.choice, Quot.sound] -/
#guard_msgs (whitespace := lax) in
#print axioms Verif.Time.C45_refuted

/-- info: 'Verif.Time.C46_add_exact' depends on axioms: [propext, Classical.choice, Quot.sound] -/
#guard_msgs (whitespace := lax) in
#print axioms Verif.Time.C46_add_exact

/-- info: 'Verif.Time.C46_sub_exact' depends on axioms: [propext, Classical.choice, Quot.sound] -/
#guard_msgs (whitespace := lax) in
#print axioms Verif.Time.C46_sub_exact

/-- info: 'Verif.Time.C46_add_in_range' depends on axioms: [propext, Classical.choice, Quot.sound] -/
#guard_msgs (whitespace := lax) in
#print axioms Verif.Time.C46_add_in_range

/-- info: 'Verif.Time.C46_epoch' depends on axioms: [propext, Quot.sound] -/
#guard_msgs (whitespace := lax) in
#print axioms Verif.Time.C46_epoch

/-- info: 'Verif.Time.C46_time_t' depends on axioms: [propext, Quot.sound] -/
#guard_msgs (whitespace := lax) in
#print axioms Verif.Time.C46_time_t

/-- info: 'Verif.Time.C46_difference' depends on axioms: [propext, Classical.choice, Quot.sound] -/
#guard_msgs (whitespace := lax) in
#print axioms Verif.Time.C46_difference

/-- info: 'Verif.Time.C47_chrono_truncates' depends on axioms: [propext, Classical.choice, Quot.sound] -/
#guard_msgs (whitespace := lax) in
#print axioms Verif.Time.C47_chrono_truncates

/-- info: 'Verif.Time.C47_chrono_exact' depends on axioms: [propext, Quot.sound] -/
#guard_msgs (whitespace := lax) in
#print axioms Verif.Time.C47_chrono_exact

/-- info: 'Verif.Time.C47_chrono_monotone' depends on axioms: [propext, Classical.choice, Quot.sound] -/
#guard_msgs (whitespace := lax) in
#print axioms Verif.Time.C47_chrono_monotone

/-- info: 'Verif.Time.C47_date_time_truncates_partial' depends on axioms: [propext, Classical.choice, Quot.sound] -/
#guard_msgs (whitespace := lax) in
#print axioms Verif.Time.C47_date_time_truncates_partial

/-- info: 'Verif.Time.C47_date_time_monotone' depends on axioms: [propext, Classical.choice, Quot.sound] -/
#guard_msgs (whitespace := lax) in
#print axioms Verif.Time.C47_date_time_monotone

/-- info: 'Verif.Time.C47_date_time_refuted' does not depend on any axioms -/
#guard_msgs (whitespace := lax) in
#print axioms Verif.Time.C47_date_time_refuted

/-- info: 'Verif.Time.C47_timespec' depends on axioms: [propext, Quot.sound] -/
#guard_msgs (whitespace := lax) in
#print axioms Verif.Time.C47_timespec

/-- info: 'Verif.UserClock.C48_timeout_only_after_deadline' depends on axioms: [propext, Quot.sound] -/
#guard_msgs (whitespace := lax) in
#print axioms Verif.UserClock.C48_timeout_only_after_deadline

/-- info: 'Verif.UserClock.C48_success_only_from_primitive' depends on axioms: [propext, Quot.sound] -/
#guard_msgs (whitespace := lax) in
#print axioms Verif.UserClock.C48_success_only_from_primitive

/-- info: 'Verif.UserClock.C48_success_returned' depends on axioms: [propext, Quot.sound] -/
#guard_msgs (whitespace := lax) in
#print axioms Verif.UserClock.C48_success_returned

/-- info: 'Verif.UserClock.C48_course' depends on axioms: [propext, Quot.sound] -/
#guard_msgs (whitespace := lax) in
#print axioms Verif.UserClock.C48_course

/-- info: 'Verif.UserClock.C48_expired_returns' depends on axioms: [propext, Quot.sound] -/
#guard_msgs (whitespace := lax) in
#print axioms Verif.UserClock.C48_expired_returns

/-- info: 'Verif.UserClock.C49_available_acquired_partial' depends on axioms: [propext, Quot.sound] -/
#guard_msgs (whitespace := lax) in
#print axioms Verif.UserClock.C49_available_acquired_partial

/-- info: 'Verif.UserClock.C49_tries_partial' depends on axioms: [propext, Classical.choice, Quot.sound] -/
#guard_msgs (whitespace := lax) in
#print axioms Verif.UserClock.C49_tries_partial

/-- info: 'Verif.UserClock.C49_refuted' depends on axioms: [propext, Quot.sound] -/
#guard_msgs (whitespace := lax) in
#print axioms Verif.UserClock.C49_refuted

/-- info: 'Verif.WaitLoop.C50_chunks_finite' depends on axioms: [propext, Classical.choice, Quot.sound] -/
#guard_msgs (whitespace := lax) in
#print axioms Verif.WaitLoop.C50_chunks_finite

/-- info: 'Verif.WaitLoop.C50_chunks_add_up' depends on axioms: [propext, Classical.choice, Quot.sound] -/
#guard_msgs (whitespace := lax) in
#print axioms Verif.WaitLoop.C50_chunks_add_up

/-- info: 'Verif.WaitLoop.C50_never_more' depends on axioms: [propext, Classical.choice, Quot.sound] -/
#guard_msgs (whitespace := lax) in
#print axioms Verif.WaitLoop.C50_never_more

/-- info: 'Verif.WaitLoop.C50_terminates' depends on axioms: [propext, Classical.choice, Quot.sound] -/
#guard_msgs (whitespace := lax) in
#print axioms Verif.WaitLoop.C50_terminates

/-- info: 'Verif.WaitLoop.C50_non_positive_no_wait' depends on axioms: [propext] -/
#guard_msgs (whitespace := lax) in
#print axioms Verif.WaitLoop.C50_non_positive_no_wait

/-- info: 'Verif.WaitLoop.C50_non_positive_polls' depends on axioms: [propext, Quot.sound] -/
#guard_msgs (whitespace := lax) in
#print axioms Verif.WaitLoop.C50_non_positive_polls

/-- info: 'Verif.WaitLoop.C51_bounded_partial' depends on axioms: [propext, Classical.choice, Quot.sound] -/
#guard_msgs (whitespace := lax) in
#print axioms Verif.WaitLoop.C51_bounded_partial

/-- info: 'Verif.WaitLoop.C51_per_wakeup_partial' depends on axioms: [propext, Classical.choice, Quot.sound] -/
#guard_msgs (whitespace := lax) in
#print axioms Verif.WaitLoop.C51_per_wakeup_partial

/-- info: 'Verif.WaitLoop.C51_refuted' depends on axioms: [propext, Quot.sound] -/
#guard_msgs (whitespace := lax) in
#print axioms Verif.WaitLoop.C51_refuted

/-- info: 'Verif.Time.C52_futex_timeout' depends on axioms: [propext, Classical.choice, Quot.sound] -/
#guard_msgs (whitespace := lax) in
#print axioms Verif.Time.C52_futex_timeout

/-- info: 'Verif.Locks.C53_accounting' depends on axioms: [propext, Quot.sound] -/
#guard_msgs (whitespace := lax) in
#print axioms Verif.Locks.C53_accounting

/-- info: 'Verif.Locks.C53_owner_really_owns' depends on axioms: [propext, Quot.sound] -/
#guard_msgs (whitespace := lax) in
#print axioms Verif.Locks.C53_owner_really_owns

/-- info: 'Verif.Locks.C53_never_negative' depends on axioms: [propext, Quot.sound] -/
#guard_msgs (whitespace := lax) in
#print axioms Verif.Locks.C53_never_negative

/-- info: 'Verif.Locks.C53_all_released' depends on axioms: [propext, Classical.choice, Quot.sound] -/
#guard_msgs (whitespace := lax) in
#print axioms Verif.Locks.C53_all_released

/-- info: 'Verif.Locks.C53_released_only_by_owner' depends on axioms: [propext] -/
#guard_msgs (whitespace := lax) in
#print axioms Verif.Locks.C53_released_only_by_owner

/-- info: 'Verif.Locks.C53_no_null_dereference' depends on axioms: [propext, Quot.sound] -/
#guard_msgs (whitespace := lax) in
#print axioms Verif.Locks.C53_no_null_dereference

/-- info: 'Verif.Locks.C53_others_unchanged' depends on axioms: [propext] -/
#guard_msgs (whitespace := lax) in
#print axioms Verif.Locks.C53_others_unchanged

/-- info: 'Verif.Locks.C53_try_result' depends on axioms: [propext, Quot.sound] -/
#guard_msgs (whitespace := lax) in
#print axioms Verif.Locks.C53_try_result

/-- info: 'Verif.Locks.C53_lock_result' depends on axioms: [propext, Quot.sound] -/
#guard_msgs (whitespace := lax) in
#print axioms Verif.Locks.C53_lock_result

/-- info: 'Verif.Locks.C53_unlock_result' depends on axioms: [propext, Quot.sound] -/
#guard_msgs (whitespace := lax) in
#print axioms Verif.Locks.C53_unlock_result

/-- info: 'Verif.Locks.C53_observers' depends on axioms: [propext, Quot.sound] -/
#guard_msgs (whitespace := lax) in
#print axioms Verif.Locks.C53_observers

/-- info: 'Verif.Locks.C53_release_result' depends on axioms: [propext] -/
#guard_msgs (whitespace := lax) in
#print axioms Verif.Locks.C53_release_result

/-- info: 'Verif.Locks.C53_swap_result' depends on axioms: [propext] -/
#guard_msgs (whitespace := lax) in
#print axioms Verif.Locks.C53_swap_result

/-- info: 'Verif.Locks.C53_move_result' depends on axioms: [propext, Quot.sound] -/
#guard_msgs (whitespace := lax) in
#print axioms Verif.Locks.C53_move_result

/-- info: 'Verif.Locks.C53_ctor_result' depends on axioms: [propext, Quot.sound] -/
#guard_msgs (whitespace := lax) in
#print axioms Verif.Locks.C53_ctor_result

/-- info: 'Verif.Locks.C54_misuse_throws' depends on axioms: [propext, Quot.sound] -/
#guard_msgs (whitespace := lax) in
#print axioms Verif.Locks.C54_misuse_throws

/-- info: 'Verif.Locks.C54_throw_changes_nothing' depends on axioms: [propext, Quot.sound] -/
#guard_msgs (whitespace := lax) in
#print axioms Verif.Locks.C54_throw_changes_nothing

/-- info: 'Verif.Locks.C54_error_means_misuse' depends on axioms: [propext] -/
#guard_msgs (whitespace := lax) in
#print axioms Verif.Locks.C54_error_means_misuse

/-- info: 'Verif.Locks.C55_accounting' depends on axioms: [propext, Quot.sound] -/
#guard_msgs (whitespace := lax) in
#print axioms Verif.Locks.C55_accounting

/-- info: 'Verif.Locks.C56_conversion' depends on axioms: [propext, Quot.sound] -/
#guard_msgs (whitespace := lax) in
#print axioms Verif.Locks.C56_conversion

/-- info: 'Verif.Locks.C56_assignment' depends on axioms: [propext, Quot.sound] -/
#guard_msgs (whitespace := lax) in
#print axioms Verif.Locks.C56_assignment

/-- info: 'Verif.Locks.C56_plain_never_fails' depends on axioms: [propext, Quot.sound] -/
#guard_msgs (whitespace := lax) in
#print axioms Verif.Locks.C56_plain_never_fails

/-- info: 'Verif.Guards.C57_balanced_partial' depends on axioms: [propext, Classical.choice, Quot.sound] -/
#guard_msgs (whitespace := lax) in
#print axioms Verif.Guards.C57_balanced_partial

/-- info: 'Verif.Guards.C57_promise_partial' depends on axioms: [propext, Classical.choice, Quot.sound] -/
#guard_msgs (whitespace := lax) in
#print axioms Verif.Guards.C57_promise_partial

/-- info: 'Verif.Guards.C57_no_wrong_unlock_partial' depends on axioms: [propext, Classical.choice, Quot.sound] -/
#guard_msgs (whitespace := lax) in
#print axioms Verif.Guards.C57_no_wrong_unlock_partial

/-- info: 'Verif.Guards.C57_balanced_locks' depends on axioms: [propext, Classical.choice, Quot.sound] -/
#guard_msgs (whitespace := lax) in
#print axioms Verif.Guards.C57_balanced_locks

/-- info: 'Verif.Guards.C57_refuted' depends on axioms: [propext, Quot.sound] -/
#guard_msgs (whitespace := lax) in
#print axioms Verif.Guards.C57_refuted

/-- info: 'Verif.Tss.C58_partial' depends on axioms: [propext, Classical.choice, Quot.sound] -/
#guard_msgs (whitespace := lax) in
#print axioms Verif.Tss.C58_partial

/-- info: 'Verif.Tss.C58_never_wrong' depends on axioms: [propext, Classical.choice, Quot.sound] -/
#guard_msgs (whitespace := lax) in
#print axioms Verif.Tss.C58_never_wrong

/-- info: 'Verif.Tss.C58_refuted' depends on axioms: [propext] -/
#guard_msgs (whitespace := lax) in
#print axioms Verif.Tss.C58_refuted

/-- info: 'Verif.Tss.C58_reset_get' depends on axioms: [propext, Quot.sound] -/
#guard_msgs (whitespace := lax) in
#print axioms Verif.Tss.C58_reset_get

/-- info: 'Verif.Tss.C58_release_get' depends on axioms: [propext, Quot.sound] -/
#guard_msgs (whitespace := lax) in
#print axioms Verif.Tss.C58_release_get

/-- info: 'Verif.Tss.C59_distinct' depends on axioms: [propext, Classical.choice, Quot.sound] -/
#guard_msgs (whitespace := lax) in
#print axioms Verif.Tss.C59_distinct

/-- info: 'Verif.Tss.C59_starts_null' depends on axioms: [propext, Classical.choice, Quot.sound] -/
#guard_msgs (whitespace := lax) in
#print axioms Verif.Tss.C59_starts_null

/-- info: 'Verif.Tss.C60_accounting' depends on axioms: [propext, Classical.choice, Quot.sound] -/
#guard_msgs (whitespace := lax) in
#print axioms Verif.Tss.C60_accounting

/-- info: 'Verif.Tss.C60_rightly_partial' depends on axioms: [propext, Classical.choice, Quot.sound] -/
#guard_msgs (whitespace := lax) in
#print axioms Verif.Tss.C60_rightly_partial

/-- info: 'Verif.Tss.C60_nothing_left_partial' depends on axioms: [propext, Classical.choice, Quot.sound] -/
#guard_msgs (whitespace := lax) in
#print axioms Verif.Tss.C60_nothing_left_partial

/-- info: 'Verif.Tss.C60_nothing_left_windows' depends on axioms: [propext, Classical.choice, Quot.sound] -/
#guard_msgs (whitespace := lax) in
#print axioms Verif.Tss.C60_nothing_left_windows

/-- info: 'Verif.Tss.C60_refuted' depends on axioms: [propext] -/
#guard_msgs (whitespace := lax) in
#print axioms Verif.Tss.C60_refuted

/-- info: 'Verif.Tss.C60_reset_cleans' depends on axioms: [propext, Quot.sound] -/
#guard_msgs (whitespace := lax) in
#print axioms Verif.Tss.C60_reset_cleans

/-- info: 'Verif.Tss.C60_destroyed_partial' depends on axioms: [propext, Classical.choice, Quot.sound] -/
#guard_msgs (whitespace := lax) in
#print axioms Verif.Tss.C60_destroyed_partial

/-- info: 'Verif.Tss.C61_refuted' depends on axioms: [propext] -/
#guard_msgs (whitespace := lax) in
#print axioms Verif.Tss.C61_refuted

/-- info: 'Verif.Tss.C61_at_most_once_partial' depends on axioms: [propext, Classical.choice, Quot.sound] -/
#guard_msgs (whitespace := lax) in
#print axioms Verif.Tss.C61_at_most_once_partial

/-- info: 'Verif.Tss.C61_considerate_partial' depends on axioms: [propext, Classical.choice, Quot.sound] -/
#guard_msgs (whitespace := lax) in
#print axioms Verif.Tss.C61_considerate_partial

/-- info: 'Verif.Tss.C62_order' depends on axioms: [propext, Classical.choice, Quot.sound] -/
#guard_msgs (whitespace := lax) in
#print axioms Verif.Tss.C62_order

/-- info: 'Verif.Tss.C62_at_most_once' depends on axioms: [propext, Classical.choice, Quot.sound] -/
#guard_msgs (whitespace := lax) in
#print axioms Verif.Tss.C62_at_most_once

/-- info: 'Verif.Tss.C62_exactly_once_posix_partial' depends on axioms: [propext, Classical.choice, Quot.sound] -/
#guard_msgs (whitespace := lax) in
#print axioms Verif.Tss.C62_exactly_once_posix_partial

/-- info: 'Verif.Tss.C62_exactly_once_windows_partial' depends on axioms: [propext, Classical.choice, Quot.sound] -/
#guard_msgs (whitespace := lax) in
#print axioms Verif.Tss.C62_exactly_once_windows_partial

/-- info: 'Verif.Tss.C62_refuted_posix' depends on axioms: [propext] -/
#guard_msgs (whitespace := lax) in
#print axioms Verif.Tss.C62_refuted_posix

/-- info: 'Verif.Tss.C63_order_windows' depends on axioms: [propext, Classical.choice, Quot.sound] -/
#guard_msgs (whitespace := lax) in
#print axioms Verif.Tss.C63_order_windows

/-- info: 'Verif.Tss.C63_order_posix_partial' depends on axioms: [propext, Classical.choice, Quot.sound] -/
#guard_msgs (whitespace := lax) in
#print axioms Verif.Tss.C63_order_posix_partial

/-- info: 'Verif.Tss.C63_notifications' depends on axioms: [propext, Classical.choice, Quot.sound] -/
#guard_msgs (whitespace := lax) in
#print axioms Verif.Tss.C63_notifications

/-- info: 'Verif.Tss.C63_all_notified_windows' depends on axioms: [propext, Classical.choice, Quot.sound] -/
#guard_msgs (whitespace := lax) in
#print axioms Verif.Tss.C63_all_notified_windows

/-- info: 'Verif.Tss.C63_all_notified_posix_partial' depends on axioms: [propext, Classical.choice, Quot.sound] -/
#guard_msgs (whitespace := lax) in
#print axioms Verif.Tss.C63_all_notified_posix_partial

/-- info: 'Verif.Tss.C63_refuted_posix' depends on axioms: [propext] -/
#guard_msgs (whitespace := lax) in
#print axioms Verif.Tss.C63_refuted_posix

/-- info: 'Verif.Tss.C64_refuted_windows' depends on axioms: [propext] -/
#guard_msgs (whitespace := lax) in
#print axioms Verif.Tss.C64_refuted_windows

/-- info: 'Verif.Tss.C64_posix_partial' depends on axioms: [propext, Classical.choice, Quot.sound] -/
#guard_msgs (whitespace := lax) in
#print axioms Verif.Tss.C64_posix_partial

/-- info: 'Verif.Tss.C65_refuted_tls' depends on axioms: [propext] -/
#guard_msgs (whitespace := lax) in
#print axioms Verif.Tss.C65_refuted_tls

/-- info: 'Verif.Tss.C65_tls_never' depends on axioms: [propext, Classical.choice, Quot.sound] -/
#guard_msgs (whitespace := lax) in
#print axioms Verif.Tss.C65_tls_never

/-- info: 'Verif.Tss.C65_nothing_left_partial' depends on axioms: [propext, Classical.choice, Quot.sound] -/
#guard_msgs (whitespace := lax) in
#print axioms Verif.Tss.C65_nothing_left_partial

/-- info: 'Verif.TimerInit.C66_timer' depends on axioms: [propext, Classical.choice, Quot.sound] -/
#guard_msgs (whitespace := lax) in
#print axioms Verif.TimerInit.C66_timer

/-- info: 'Verif.TimerInit.C66_timer_retry' depends on axioms: [propext, Classical.choice, Quot.sound] -/
#guard_msgs (whitespace := lax) in
#print axioms Verif.TimerInit.C66_timer_retry

/-- info: 'Verif.TimerInit.C66_timer_progress' depends on axioms: [propext, Quot.sound] -/
#guard_msgs (whitespace := lax) in
#print axioms Verif.TimerInit.C66_timer_progress

/-- info: 'Verif.TssOnce.C66_tss' depends on axioms: [propext, Classical.choice, Quot.sound] -/
#guard_msgs (whitespace := lax) in
#print axioms Verif.TssOnce.C66_tss

/-- info: 'Verif.TssOnce.C66_tss_progress' depends on axioms: [propext, Classical.choice, Quot.sound] -/
#guard_msgs (whitespace := lax) in
#print axioms Verif.TssOnce.C66_tss_progress

/-- info: 'Verif.Once.done_once' depends on axioms: [propext, Quot.sound] -/
#guard_msgs (whitespace := lax) in
#print axioms Verif.Once.done_once

/-- info: 'Verif.Once.proceeded_after' depends on axioms: [propext, Quot.sound] -/
#guard_msgs (whitespace := lax) in
#print axioms Verif.Once.proceeded_after

/-- info: 'Verif.SemName.C67_injective' depends on axioms: [propext, Classical.choice, Quot.sound] -/
#guard_msgs (whitespace := lax) in
#print axioms Verif.SemName.C67_injective

/-- info: 'Verif.SemName.C67_terminated' depends on axioms: [propext, Classical.choice, Quot.sound] -/
#guard_msgs (whitespace := lax) in
#print axioms Verif.SemName.C67_terminated

/-- info: 'Verif.SemName.C67_digits' depends on axioms: [propext, Classical.choice, Quot.sound] -/
#guard_msgs (whitespace := lax) in
#print axioms Verif.SemName.C67_digits

/-- info: 'Verif.WinGetEvent.C68_same_event' depends on axioms: [propext, Classical.choice, Quot.sound] -/
#guard_msgs (whitespace := lax) in
#print axioms Verif.WinGetEvent.C68_same_event

/-- info: 'Verif.WinGetEvent.C68_never_replaced' depends on axioms: [propext, Quot.sound] -/
#guard_msgs (whitespace := lax) in
#print axioms Verif.WinGetEvent.C68_never_replaced

/-- info: 'Verif.WinGetEvent.C68_close_is_legal' depends on axioms: [propext, Classical.choice, Quot.sound] -/
#guard_msgs (whitespace := lax) in
#print axioms Verif.WinGetEvent.C68_close_is_legal

/-- info: 'Verif.WinGetEvent.C68_no_leak' depends on axioms: [propext, Classical.choice, Quot.sound] -/
#guard_msgs (whitespace := lax) in
#print axioms Verif.WinGetEvent.C68_no_leak

/-- info: 'Verif.WinGetEvent.C68_throws' depends on axioms: [propext, Quot.sound] -/
#guard_msgs (whitespace := lax) in
#print axioms Verif.WinGetEvent.C68_throws

/-- info: 'Verif.WinGetEvent.C68_completes' depends on axioms: [propext, Quot.sound] -/
#guard_msgs (whitespace := lax) in
#print axioms Verif.WinGetEvent.C68_completes

/-- info: 'Verif.Interrupted.C69_reports_the_answer' depends on axioms: [propext] -/
#guard_msgs (whitespace := lax) in
#print axioms Verif.Interrupted.C69_reports_the_answer

/-- info: 'Verif.Interrupted.C69_never_thrown' depends on axioms: [propext] -/
#guard_msgs (whitespace := lax) in
#print axioms Verif.Interrupted.C69_never_thrown

/-- info: 'Verif.Interrupted.C69_retries' depends on axioms: [propext] -/
#guard_msgs (whitespace := lax) in
#print axioms Verif.Interrupted.C69_retries

/-- info: 'Verif.OsSem.C70_initial_permits' depends on axioms: [propext, Classical.choice, Quot.sound] -/
#guard_msgs (whitespace := lax) in
#print axioms Verif.OsSem.C70_initial_permits

/-- info: 'Verif.OsSem.C70_constructor' depends on axioms: [propext, Quot.sound] -/
#guard_msgs (whitespace := lax) in
#print axioms Verif.OsSem.C70_constructor

/-- info: 'Verif.Time.C71_mach_timeout_partial' depends on axioms: [propext, Classical.choice, Quot.sound] -/
#guard_msgs (whitespace := lax) in
#print axioms Verif.Time.C71_mach_timeout_partial

/-- info: 'Verif.Time.C71_refuted' does not depend on any axioms -/
#guard_msgs (whitespace := lax) in
#print axioms Verif.Time.C71_refuted

/-- info: 'Verif.TssRace.C72_refuted_storage' depends on axioms: [propext] -/
#guard_msgs (whitespace := lax) in
#print axioms Verif.TssRace.C72_refuted_storage

/-- info: 'Verif.TssRace.C72_refuted_table' depends on axioms: [propext] -/
#guard_msgs (whitespace := lax) in
#print axioms Verif.TssRace.C72_refuted_table

/-- info: 'Verif.TssRace.C72_races_partial' depends on axioms: [propext, Classical.choice, Quot.sound] -/
#guard_msgs (whitespace := lax) in
#print axioms Verif.TssRace.C72_races_partial

/-- info: 'Verif.TssRace.C72_list_partial' depends on axioms: [propext, Classical.choice, Quot.sound] -/
#guard_msgs (whitespace := lax) in
#print axioms Verif.TssRace.C72_list_partial

/-- info: 'Verif.TssRace.C72_free_partial' depends on axioms: [propext, Classical.choice, Quot.sound] -/
#guard_msgs (whitespace := lax) in
#print axioms Verif.TssRace.C72_free_partial

/-- info: 'Verif.TimerInit.C73_one_key' depends on axioms: [propext, Classical.choice, Quot.sound] -/
#guard_msgs (whitespace := lax) in
#print axioms Verif.TimerInit.C73_one_key

/-- info: 'Verif.TimerInit.C73_one_slot' depends on axioms: [propext, Classical.choice, Quot.sound] -/
#guard_msgs (whitespace := lax) in
#print axioms Verif.TimerInit.C73_one_slot

/-- info: 'Verif.TimerInit.C73_slots' depends on axioms: [propext, Classical.choice, Quot.sound] -/
#guard_msgs (whitespace := lax) in
#print axioms Verif.TimerInit.C73_slots

/-- info: 'Verif.TimerContext.C74_one_timer' depends on axioms: [propext, Quot.sound] -/
#guard_msgs (whitespace := lax) in
#print axioms Verif.TimerContext.C74_one_timer

/-- info: 'Verif.TimerContext.C74_no_leak' depends on axioms: [propext, Quot.sound] -/
#guard_msgs (whitespace := lax) in
#print axioms Verif.TimerContext.C74_no_leak

/-- info: 'Verif.TimerContext.C74_no_double_release' depends on axioms: [propext, Quot.sound] -/
#guard_msgs (whitespace := lax) in
#print axioms Verif.TimerContext.C74_no_double_release

/-- info: 'Verif.TimerContext.C74_later_calls' depends on axioms: [propext, Quot.sound] -/
#guard_msgs (whitespace := lax) in
#print axioms Verif.TimerContext.C74_later_calls

/-- info: 'Verif.TimerContext.C74_first_call' depends on axioms: [propext, Quot.sound] -/
#guard_msgs (whitespace := lax) in
#print axioms Verif.TimerContext.C74_first_call

/-- info: 'Verif.TimerInit.C75_handles_refuted' depends on axioms: [propext, Quot.sound] -/
#guard_msgs (whitespace := lax) in
#print axioms Verif.TimerInit.C75_handles_refuted

/-- info: 'Verif.TimerInit.C75_handles_partial' depends on axioms: [propext, Classical.choice, Quot.sound] -/
#guard_msgs (whitespace := lax) in
#print axioms Verif.TimerInit.C75_handles_partial

/-- info: 'Verif.Monitor.C76_refuted_auto_event' depends on axioms: [propext] -/
#guard_msgs (whitespace := lax) in
#print axioms Verif.Monitor.C76_refuted_auto_event

/-- info: 'Verif.Monitor.C76_refuted_manual_event' depends on axioms: [propext] -/
#guard_msgs (whitespace := lax) in
#print axioms Verif.Monitor.C76_refuted_manual_event

/-- info: 'Verif.Monitor.C76_refuted_semaphore' depends on axioms: [propext] -/
#guard_msgs (whitespace := lax) in
#print axioms Verif.Monitor.C76_refuted_semaphore

/-- info: 'Verif.Monitor.C76_refuted_timed_mutex' depends on axioms: [propext] -/
#guard_msgs (whitespace := lax) in
#print axioms Verif.Monitor.C76_refuted_timed_mutex

/-- info: 'Verif.Monitor.C76_partial' depends on axioms: [propext, Classical.choice, Quot.sound] -/
#guard_msgs (whitespace := lax) in
#print axioms Verif.Monitor.C76_partial

/-- info: 'Verif.Monitor.C76_manual_event_partial' depends on axioms: [propext, Classical.choice, Quot.sound] -/
#guard_msgs (whitespace := lax) in
#print axioms Verif.Monitor.C76_manual_event_partial

/-- info: 'Verif.Monitor.C77_auto_event' depends on axioms: [propext, Classical.choice, Quot.sound] -/
#guard_msgs (whitespace := lax) in
#print axioms Verif.Monitor.C77_auto_event

/-- info: 'Verif.Monitor.C77_manual_event' depends on axioms: [propext, Classical.choice, Quot.sound] -/
#guard_msgs (whitespace := lax) in
#print axioms Verif.Monitor.C77_manual_event

/-- info: 'Verif.Monitor.C77_semaphore' depends on axioms: [propext, Classical.choice, Quot.sound] -/
#guard_msgs (whitespace := lax) in
#print axioms Verif.Monitor.C77_semaphore

/-- info: 'Verif.Monitor.C77_timed_mutex' depends on axioms: [propext, Classical.choice, Quot.sound] -/
#guard_msgs (whitespace := lax) in
#print axioms Verif.Monitor.C77_timed_mutex

/-- info: 'Verif.AutoSem.C78_refuted' depends on axioms: [propext] -/
#guard_msgs (whitespace := lax) in
#print axioms Verif.AutoSem.C78_refuted

/-- info: 'Verif.CondVarPosix.C79_mutex_held' depends on axioms: [propext, Classical.choice, Quot.sound] -/
#guard_msgs (whitespace := lax) in
#print axioms Verif.CondVarPosix.C79_mutex_held

/-- info: 'Verif.CondVarPosix.C79_exclusive' depends on axioms: [propext, Classical.choice, Quot.sound] -/
#guard_msgs (whitespace := lax) in
#print axioms Verif.CondVarPosix.C79_exclusive

/-- info: 'Verif.CondVarPosix.C79_results' depends on axioms: [propext, Classical.choice, Quot.sound] -/
#guard_msgs (whitespace := lax) in
#print axioms Verif.CondVarPosix.C79_results

/-- info: 'Verif.CondVarPosix.C79_timeout_ends' depends on axioms: [propext, Quot.sound] -/
#guard_msgs (whitespace := lax) in
#print axioms Verif.CondVarPosix.C79_timeout_ends

/-- info: 'Verif.CondVarPosix.C80_refuted_user_clock' depends on axioms: [propext] -/
#guard_msgs (whitespace := lax) in
#print axioms Verif.CondVarPosix.C80_refuted_user_clock

/-- info: 'Verif.CondVarPosix.C80_refuted_interrupted' depends on axioms: [propext] -/
#guard_msgs (whitespace := lax) in
#print axioms Verif.CondVarPosix.C80_refuted_interrupted

/-- info: 'Verif.CondVarPosix.C80_partial' depends on axioms: [propext, Classical.choice, Quot.sound] -/
#guard_msgs (whitespace := lax) in
#print axioms Verif.CondVarPosix.C80_partial

/-- info: 'Verif.CondVarPosix.C80_wakes' depends on axioms: [propext, Quot.sound] -/
#guard_msgs (whitespace := lax) in
#print axioms Verif.CondVarPosix.C80_wakes

/-- info: 'Verif.CondVarPosix.C80_returns' depends on axioms: [propext, Quot.sound] -/
#guard_msgs (whitespace := lax) in
#print axioms Verif.CondVarPosix.C80_returns

/-- info: 'Verif.WinMutex.C81_refuted' depends on axioms: [propext, Quot.sound] -/
#guard_msgs (whitespace := lax) in
#print axioms Verif.WinMutex.C81_refuted

/-- info: 'Verif.WinMutex.C81_partial' depends on axioms: [propext, Classical.choice, Quot.sound] -/
#guard_msgs (whitespace := lax) in
#print axioms Verif.WinMutex.C81_partial

/-- info: 'Verif.WinCv.C82_refuted' depends on axioms: [propext] -/
#guard_msgs (whitespace := lax) in
#print axioms Verif.WinCv.C82_refuted

/-- info: 'Verif.WinCv.C82_partial' depends on axioms: [propext, Classical.choice, Quot.sound] -/
#guard_msgs (whitespace := lax) in
#print axioms Verif.WinCv.C82_partial

/-- info: 'Verif.WinCv.C83_freed_once' depends on axioms: [propext, Classical.choice, Quot.sound] -/
#guard_msgs (whitespace := lax) in
#print axioms Verif.WinCv.C83_freed_once

/-- info: 'Verif.WinCv.C83_kept' depends on axioms: [propext, Quot.sound] -/
#guard_msgs (whitespace := lax) in
#print axioms Verif.WinCv.C83_kept

/-- info: 'Verif.WinEvent.C84_atomic' depends on axioms: [propext, Classical.choice, Quot.sound] -/
#guard_msgs (whitespace := lax) in
#print axioms Verif.WinEvent.C84_atomic

/-- info: 'Verif.WinEvent.C84_results' depends on axioms: [propext, Classical.choice, Quot.sound] -/
#guard_msgs (whitespace := lax) in
#print axioms Verif.WinEvent.C84_results

/-- info: 'Verif.WinEvent.C84_effects' depends on axioms: [propext, Classical.choice, Quot.sound] -/
#guard_msgs (whitespace := lax) in
#print axioms Verif.WinEvent.C84_effects

/-- info: 'Verif.WinEvent.C84_wakes' depends on axioms: [propext, Classical.choice, Quot.sound] -/
#guard_msgs (whitespace := lax) in
#print axioms Verif.WinEvent.C84_wakes

/-- info: 'Verif.WinEvent.C84_returns' depends on axioms: [propext, Quot.sound] -/
#guard_msgs (whitespace := lax) in
#print axioms Verif.WinEvent.C84_returns

/-- info: 'Verif.Lifecycle.C85_refuted' depends on axioms: [propext, Quot.sound] -/
#guard_msgs (whitespace := lax) in
#print axioms Verif.Lifecycle.C85_refuted

/-- info: 'Verif.Lifecycle.C85_partial' depends on axioms: [propext, Classical.choice, Quot.sound] -/
#guard_msgs (whitespace := lax) in
#print axioms Verif.Lifecycle.C85_partial

/-- info: 'Verif.Lifecycle.C85_destroyed' depends on axioms: [propext, Classical.choice, Quot.sound] -/
#guard_msgs (whitespace := lax) in
#print axioms Verif.Lifecycle.C85_destroyed

/-- info: 'Verif.Lifecycle.C85_objects' depends on axioms: [propext, Classical.choice, Quot.sound] -/
#guard_msgs (whitespace := lax) in
#print axioms Verif.Lifecycle.C85_objects

/-- info: 'Verif.Lifecycle.C85_succeeds' depends on axioms: [propext, Quot.sound] -/
#guard_msgs (whitespace := lax) in
#print axioms Verif.Lifecycle.C85_succeeds

/-- info: 'Verif.Lifecycle.C85_twice' depends on axioms: [propext, Classical.choice, Quot.sound] -/
#guard_msgs (whitespace := lax) in
#print axioms Verif.Lifecycle.C85_twice

/-- info: 'Verif.TssAlloc.C86_refuted_leak' depends on axioms: [propext] -/
#guard_msgs (whitespace := lax) in
#print axioms Verif.TssAlloc.C86_refuted_leak

/-- info: 'Verif.TssAlloc.C86_refuted_value' depends on axioms: [propext] -/
#guard_msgs (whitespace := lax) in
#print axioms Verif.TssAlloc.C86_refuted_value

/-- info: 'Verif.TssAlloc.C86_refuted_callback' depends on axioms: [propext] -/
#guard_msgs (whitespace := lax) in
#print axioms Verif.TssAlloc.C86_refuted_callback

/-- info: 'Verif.TssAlloc.C86_refuted_delete' depends on axioms: [propext] -/
#guard_msgs (whitespace := lax) in
#print axioms Verif.TssAlloc.C86_refuted_delete

/-- info: 'Verif.TssAlloc.C86_unchanged_partial' depends on axioms: [propext, Quot.sound] -/
#guard_msgs (whitespace := lax) in
#print axioms Verif.TssAlloc.C86_unchanged_partial

/-- info: 'Verif.TssAlloc.C86_effect_partial' depends on axioms: [propext, Classical.choice, Quot.sound] -/
#guard_msgs (whitespace := lax) in
#print axioms Verif.TssAlloc.C86_effect_partial

/-- info: 'Verif.TssAlloc.C86_release' depends on axioms: [propext, Quot.sound] -/
#guard_msgs (whitespace := lax) in
#print axioms Verif.TssAlloc.C86_release

/-- info: 'Verif.TssAlloc.C86_accounted' depends on axioms: [propext, Classical.choice, Quot.sound] -/
#guard_msgs (whitespace := lax) in
#print axioms Verif.TssAlloc.C86_accounted

/-- info: 'Verif.TssAlloc.C86_nothing_left' depends on axioms: [propext, Classical.choice, Quot.sound] -/
#guard_msgs (whitespace := lax) in
#print axioms Verif.TssAlloc.C86_nothing_left

/-- info: 'Verif.TssProcess.C87_refuted_delete' depends on axioms: [propext] -/
#guard_msgs (whitespace := lax) in
#print axioms Verif.TssProcess.C87_refuted_delete

/-- info: 'Verif.TssProcess.C87_refuted_store' depends on axioms: [propext] -/
#guard_msgs (whitespace := lax) in
#print axioms Verif.TssProcess.C87_refuted_store

/-- info: 'Verif.TssProcess.C87_refuted_get' depends on axioms: [propext] -/
#guard_msgs (whitespace := lax) in
#print axioms Verif.TssProcess.C87_refuted_get

/-- info: 'Verif.TssProcess.C87_refuted_race' depends on axioms: [propext] -/
#guard_msgs (whitespace := lax) in
#print axioms Verif.TssProcess.C87_refuted_race

/-- info: 'Verif.TssProcess.C87_refuted_unlock' depends on axioms: [propext] -/
#guard_msgs (whitespace := lax) in
#print axioms Verif.TssProcess.C87_refuted_unlock

/-- info: 'Verif.TssProcess.C87_refuted_lost' depends on axioms: [propext] -/
#guard_msgs (whitespace := lax) in
#print axioms Verif.TssProcess.C87_refuted_lost

/-- info: 'Verif.TssProcess.C87_no_ub_partial' depends on axioms: [propext, Classical.choice, Quot.sound] -/
#guard_msgs (whitespace := lax) in
#print axioms Verif.TssProcess.C87_no_ub_partial

/-- info: 'Verif.TssProcess.C87_exact' depends on axioms: [propext, Classical.choice, Quot.sound] -/
#guard_msgs (whitespace := lax) in
#print axioms Verif.TssProcess.C87_exact

/-- info: 'Verif.TssProcess.C87_at_most_partial' depends on axioms: [propext, Classical.choice, Quot.sound] -/
#guard_msgs (whitespace := lax) in
#print axioms Verif.TssProcess.C87_at_most_partial

/-- info: 'Verif.TssProcess.C87_dealt_partial' depends on axioms: [propext, Classical.choice, Quot.sound] -/
#guard_msgs (whitespace := lax) in
#print axioms Verif.TssProcess.C87_dealt_partial

/-- info: 'Verif.TssProcess.C87_all_dealt_partial' depends on axioms: [propext, Classical.choice, Quot.sound] -/
#guard_msgs (whitespace := lax) in
#print axioms Verif.TssProcess.C87_all_dealt_partial

/-- info: 'Verif.TssProcess.C87_function' depends on axioms: [propext, Quot.sound] -/
#guard_msgs (whitespace := lax) in
#print axioms Verif.TssProcess.C87_function

/-- info: 'Verif.TssProcess.C87_ends' depends on axioms: [propext, Classical.choice, Quot.sound] -/
#guard_msgs (whitespace := lax) in
#print axioms Verif.TssProcess.C87_ends

/-- info: 'Verif.TssProcess.C87_again' depends on axioms: [propext, Classical.choice, Quot.sound] -/
#guard_msgs (whitespace := lax) in
#print axioms Verif.TssProcess.C87_again

/-- info: 'Verif.TssProcess.C87_get_after' depends on axioms: [propext, Classical.choice, Quot.sound] -/
#guard_msgs (whitespace := lax) in
#print axioms Verif.TssProcess.C87_get_after

/-- info: 'Verif.TssHooks.C88_refuted_mingw' depends on axioms: [propext, Quot.sound] -/
#guard_msgs (whitespace := lax) in
#print axioms Verif.TssHooks.C88_refuted_mingw

/-- info: 'Verif.TssHooks.C88_refuted_mingw_old' depends on axioms: [propext, Quot.sound] -/
#guard_msgs (whitespace := lax) in
#print axioms Verif.TssHooks.C88_refuted_mingw_old

/-- info: 'Verif.TssHooks.C88_refuted_atexit' depends on axioms: [propext] -/
#guard_msgs (whitespace := lax) in
#print axioms Verif.TssHooks.C88_refuted_atexit

/-- info: 'Verif.TssHooks.C88_refuted_values' depends on axioms: [propext, Classical.choice, Quot.sound] -/
#guard_msgs (whitespace := lax) in
#print axioms Verif.TssHooks.C88_refuted_values

/-- info: 'Verif.TssHooks.C88_refuted_callbacks' depends on axioms: [propext, Classical.choice, Quot.sound] -/
#guard_msgs (whitespace := lax) in
#print axioms Verif.TssHooks.C88_refuted_callbacks

/-- info: 'Verif.TssHooks.C88_contract_partial' depends on axioms: [propext, Quot.sound] -/
#guard_msgs (whitespace := lax) in
#print axioms Verif.TssHooks.C88_contract_partial

/-- info: 'Verif.TssHooks.C88_mingw_partial' depends on axioms: [propext, Quot.sound] -/
#guard_msgs (whitespace := lax) in
#print axioms Verif.TssHooks.C88_mingw_partial

/-- info: 'Verif.TssHooks.C88_mine' depends on axioms: [propext, Classical.choice, Quot.sound] -/
#guard_msgs (whitespace := lax) in
#print axioms Verif.TssHooks.C88_mine

/-- info: 'Verif.TssHooks.C88_last' depends on axioms: [propext, Classical.choice, Quot.sound] -/
#guard_msgs (whitespace := lax) in
#print axioms Verif.TssHooks.C88_last

/-- info: 'Verif.AutoSemOrder.C89_refuted' depends on axioms: [propext, Quot.sound] -/
#guard_msgs (whitespace := lax) in
#print axioms Verif.AutoSemOrder.C89_refuted

/-- info: 'Verif.AutoSemOrder.C89_lost_refuted' depends on axioms: [propext] -/
#guard_msgs (whitespace := lax) in
#print axioms Verif.AutoSemOrder.C89_lost_refuted

/-- info: 'Verif.AutoSemOrder.C89_ends' depends on axioms: [propext, Quot.sound] -/
#guard_msgs (whitespace := lax) in
#print axioms Verif.AutoSemOrder.C89_ends

/-- info: 'Verif.AutoSemOrder.C89_effective_partial' depends on axioms: [propext, Quot.sound] -/
#guard_msgs (whitespace := lax) in
#print axioms Verif.AutoSemOrder.C89_effective_partial

/-- info: 'Verif.AutoSemOrder.C89_counted_partial' depends on axioms: [propext, Quot.sound] -/
#guard_msgs (whitespace := lax) in
#print axioms Verif.AutoSemOrder.C89_counted_partial

/-- info: 'Verif.AutoSemOrder.C89_dropped_partial' depends on axioms: [propext, Classical.choice, Quot.sound] -/
#guard_msgs (whitespace := lax) in
#print axioms Verif.AutoSemOrder.C89_dropped_partial

/-- info: 'Verif.AutoSemOrder.C89_newest' depends on axioms: [propext, Classical.choice, Quot.sound] -/
#guard_msgs (whitespace := lax) in
#print axioms Verif.AutoSemOrder.C89_newest

/-- info: 'Verif.AutoSemOrder.C89_at_most_one_per_post' depends on axioms: [propext, Classical.choice, Quot.sound] -/
#guard_msgs (whitespace := lax) in
#print axioms Verif.AutoSemOrder.C89_at_most_one_per_post

/-- info: 'Verif.AutoSemOrder.C89_remembers_partial' depends on axioms: [propext, Classical.choice, Quot.sound] -/
#guard_msgs (whitespace := lax) in
#print axioms Verif.AutoSemOrder.C89_remembers_partial

/-- info: 'Verif.AutoSemOrder.C89_covers' depends on axioms: [propext, Quot.sound] -/
#guard_msgs (whitespace := lax) in
#print axioms Verif.AutoSemOrder.C89_covers

/-- info: 'Verif.AutoFutexOrder.C90_lost_refuted' depends on axioms: [propext, Quot.sound] -/
#guard_msgs (whitespace := lax) in
#print axioms Verif.AutoFutexOrder.C90_lost_refuted

/-- info: 'Verif.AutoFutexOrder.C90_dropped_partial' depends on axioms: [propext, Classical.choice, Quot.sound] -/
#guard_msgs (whitespace := lax) in
#print axioms Verif.AutoFutexOrder.C90_dropped_partial

/-- info: 'Verif.AutoFutexOrder.C90_fails_partial' depends on axioms: [propext, Classical.choice, Quot.sound] -/
#guard_msgs (whitespace := lax) in
#print axioms Verif.AutoFutexOrder.C90_fails_partial

/-- info: 'Verif.AutoFutexOrder.C90_informed_post' depends on axioms: [propext, Classical.choice, Quot.sound] -/
#guard_msgs (whitespace := lax) in
#print axioms Verif.AutoFutexOrder.C90_informed_post

/-- info: 'Verif.AutoFutexOrder.C90_informed_wait' depends on axioms: [propext, Classical.choice, Quot.sound] -/
#guard_msgs (whitespace := lax) in
#print axioms Verif.AutoFutexOrder.C90_informed_wait

/-- info: 'Verif.AutoFutexOrder.C90_at_most_one_per_post' depends on axioms: [propext, Classical.choice, Quot.sound] -/
#guard_msgs (whitespace := lax) in
#print axioms Verif.AutoFutexOrder.C90_at_most_one_per_post

/-- info: 'Verif.AutoFutexOrder.C90_covers' depends on axioms: [propext, Classical.choice, Quot.sound] -/
#guard_msgs (whitespace := lax) in
#print axioms Verif.AutoFutexOrder.C90_covers

/-- info: 'Verif.Monitor.C91_emulated_event' depends on axioms: [propext, Classical.choice, Quot.sound] -/
#guard_msgs (whitespace := lax) in
#print axioms Verif.Monitor.C91_emulated_event

/-- info: 'Verif.Monitor.C91_emulated_semaphore' depends on axioms: [propext, Classical.choice, Quot.sound] -/
#guard_msgs (whitespace := lax) in
#print axioms Verif.Monitor.C91_emulated_semaphore

/-- info: 'Verif.Monitor.C91_emulated_mutex' depends on axioms: [propext, Classical.choice, Quot.sound] -/
#guard_msgs (whitespace := lax) in
#print axioms Verif.Monitor.C91_emulated_mutex

/-- info: 'Verif.Monitor.C91_emulated_manual' depends on axioms: [propext, Classical.choice, Quot.sound] -/
#guard_msgs (whitespace := lax) in
#print axioms Verif.Monitor.C91_emulated_manual

/-- info: 'Verif.Monitor.C91_event_none_inside' depends on axioms: [propext, Classical.choice, Quot.sound] -/
#guard_msgs (whitespace := lax) in
#print axioms Verif.Monitor.C91_event_none_inside

/-- info: 'Verif.Monitor.C91_semaphore_none_inside' depends on axioms: [propext, Classical.choice, Quot.sound] -/
#guard_msgs (whitespace := lax) in
#print axioms Verif.Monitor.C91_semaphore_none_inside

/-- info: 'Verif.Monitor.C91_mutex_none_inside' depends on axioms: [propext, Classical.choice, Quot.sound] -/
#guard_msgs (whitespace := lax) in
#print axioms Verif.Monitor.C91_mutex_none_inside

/-- info: 'Verif.Monitor.C91_manual_none_inside' depends on axioms: [propext, Classical.choice, Quot.sound] -/
#guard_msgs (whitespace := lax) in
#print axioms Verif.Monitor.C91_manual_none_inside

/-- info: 'Verif.AutoSem.C91_sem_event' depends on axioms: [propext, Classical.choice, Quot.sound] -/
#guard_msgs (whitespace := lax) in
#print axioms Verif.AutoSem.C91_sem_event

/-- info: 'Verif.AutoSem.C91_sem_event_counts' depends on axioms: [propext, Classical.choice, Quot.sound] -/
#guard_msgs (whitespace := lax) in
#print axioms Verif.AutoSem.C91_sem_event_counts

/-- info: 'Verif.Spin.C91_spin' depends on axioms: [propext] -/
#guard_msgs (whitespace := lax) in
#print axioms Verif.Spin.C91_spin

/-- info: 'Verif.SharedSpin.C91_shared_spin' depends on axioms: [propext, Quot.sound] -/
#guard_msgs (whitespace := lax) in
#print axioms Verif.SharedSpin.C91_shared_spin

/-- info: 'Verif.AutoFutex.C91_auto_futex_refuted' depends on axioms: [propext, Quot.sound] -/
#guard_msgs (whitespace := lax) in
#print axioms Verif.AutoFutex.C91_auto_futex_refuted

/-- info: 'Verif.AutoFutex.C91_auto_futex_counts_partial' depends on axioms: [propext, Classical.choice, Quot.sound] -/
#guard_msgs (whitespace := lax) in
#print axioms Verif.AutoFutex.C91_auto_futex_counts_partial

/-- info: 'Verif.AutoFutex.C91_auto_futex_word_partial' depends on axioms: [propext, Quot.sound] -/
#guard_msgs (whitespace := lax) in
#print axioms Verif.AutoFutex.C91_auto_futex_word_partial

/-- info: 'Verif.AutoFutex.C91_auto_futex_alone_partial' depends on axioms: [propext, Classical.choice, Quot.sound] -/
#guard_msgs (whitespace := lax) in
#print axioms Verif.AutoFutex.C91_auto_futex_alone_partial

/-- info: 'Verif.ManualFutex.C91_manual_futex_refuted' depends on axioms: [propext, Quot.sound] -/
#guard_msgs (whitespace := lax) in
#print axioms Verif.ManualFutex.C91_manual_futex_refuted

/-- info: 'Verif.ManualFutex.C91_manual_futex_counts_partial' depends on axioms: [propext, Classical.choice, Quot.sound] -/
#guard_msgs (whitespace := lax) in
#print axioms Verif.ManualFutex.C91_manual_futex_counts_partial

/-- info: 'Verif.ManualFutex.C91_manual_futex_word_partial' depends on axioms: [propext, Quot.sound] -/
#guard_msgs (whitespace := lax) in
#print axioms Verif.ManualFutex.C91_manual_futex_word_partial

/-- info: 'Verif.ManualFutex.C91_manual_futex_alone_partial' depends on axioms: [propext, Classical.choice, Quot.sound] -/
#guard_msgs (whitespace := lax) in
#print axioms Verif.ManualFutex.C91_manual_futex_alone_partial

/-- info: 'Verif.Failures.C92_posix_failures_reported' depends on axioms: [propext, Classical.choice, Quot.sound] -/
#guard_msgs (whitespace := lax) in
#print axioms Verif.Failures.C92_posix_failures_reported

/-- info: 'Verif.Failures.C92_posix_semaphore_waits_partial' depends on axioms: [propext, Classical.choice, Quot.sound] -/
#guard_msgs (whitespace := lax) in
#print axioms Verif.Failures.C92_posix_semaphore_waits_partial

/-- info: 'Verif.Failures.C92_posix_semaphore_wait_refuted' depends on axioms: [propext, Quot.sound] -/
#guard_msgs (whitespace := lax) in
#print axioms Verif.Failures.C92_posix_semaphore_wait_refuted

/-- info: 'Verif.Failures.C92_posix_emulated_timed_mutex_partial' depends on axioms: [propext, Classical.choice, Quot.sound] -/
#guard_msgs (whitespace := lax) in
#print axioms Verif.Failures.C92_posix_emulated_timed_mutex_partial

/-- info: 'Verif.Failures.C92_posix_emulated_timed_mutex_refuted' depends on axioms: [propext, Quot.sound] -/
#guard_msgs (whitespace := lax) in
#print axioms Verif.Failures.C92_posix_emulated_timed_mutex_refuted

/-- info: 'Verif.Failures.C92_emulated_failures_reported' depends on axioms: [propext, Classical.choice, Quot.sound] -/
#guard_msgs (whitespace := lax) in
#print axioms Verif.Failures.C92_emulated_failures_reported

/-- info: 'Verif.Failures.C92_windows_event_failures_reported' depends on axioms: [propext, Classical.choice, Quot.sound] -/
#guard_msgs (whitespace := lax) in
#print axioms Verif.Failures.C92_windows_event_failures_reported

/-- info: 'Verif.Failures.C92_windows_mutex_failures_reported' depends on axioms: [propext, Classical.choice, Quot.sound] -/
#guard_msgs (whitespace := lax) in
#print axioms Verif.Failures.C92_windows_mutex_failures_reported

/-- info: 'Verif.Failures.C92_windows_semaphore_failures_partial' depends on axioms: [propext, Classical.choice, Quot.sound] -/
#guard_msgs (whitespace := lax) in
#print axioms Verif.Failures.C92_windows_semaphore_failures_partial

/-- info: 'Verif.Failures.C92_windows_semaphore_failures_refuted' depends on axioms: [propext, Quot.sound] -/
#guard_msgs (whitespace := lax) in
#print axioms Verif.Failures.C92_windows_semaphore_failures_refuted

/-- info: 'Verif.Failures.C92_windows_cv_failures_partial' depends on axioms: [propext, Classical.choice, Quot.sound] -/
#guard_msgs (whitespace := lax) in
#print axioms Verif.Failures.C92_windows_cv_failures_partial

/-- info: 'Verif.Failures.C92_windows_wakeup_failures_refuted' depends on axioms: [propext, Quot.sound] -/
#guard_msgs (whitespace := lax) in
#print axioms Verif.Failures.C92_windows_wakeup_failures_refuted

/-- info: 'Verif.Failures.C92_macos_failures_partial' depends on axioms: [propext, Classical.choice, Quot.sound] -/
#guard_msgs (whitespace := lax) in
#print axioms Verif.Failures.C92_macos_failures_partial

/-- info: 'Verif.Failures.C92_macos_interruption_refuted' depends on axioms: [propext, Quot.sound] -/
#guard_msgs (whitespace := lax) in
#print axioms Verif.Failures.C92_macos_interruption_refuted

/-- info: 'Verif.Failures.C93_noexcept_functions_safe' depends on axioms: [propext, Classical.choice, Quot.sound] -/
#guard_msgs (whitespace := lax) in
#print axioms Verif.Failures.C93_noexcept_functions_safe

/-- info: 'Verif.Failures.C93_noexcept_functions_partial' depends on axioms: [propext, Classical.choice, Quot.sound] -/
#guard_msgs (whitespace := lax) in
#print axioms Verif.Failures.C93_noexcept_functions_partial

/-- info: 'Verif.Failures.C93_noexcept_functions_refuted' depends on axioms: [propext, Quot.sound] -/
#guard_msgs (whitespace := lax) in
#print axioms Verif.Failures.C93_noexcept_functions_refuted

/-- info: 'Verif.Failures.C93_waiting_terminates_refuted' depends on axioms: [propext, Quot.sound] -/
#guard_msgs (whitespace := lax) in
#print axioms Verif.Failures.C93_waiting_terminates_refuted

/-- info: 'Verif.Failures.C94_posix_mutex' depends on axioms: [propext, Classical.choice, Quot.sound] -/
#guard_msgs (whitespace := lax) in
#print axioms Verif.Failures.C94_posix_mutex

/-- info: 'Verif.Failures.C94_posix_semaphore_partial' depends on axioms: [propext, Classical.choice, Quot.sound] -/
#guard_msgs (whitespace := lax) in
#print axioms Verif.Failures.C94_posix_semaphore_partial

/-- info: 'Verif.Failures.C94_posix_semaphore_refuted' depends on axioms: [propext, Quot.sound] -/
#guard_msgs (whitespace := lax) in
#print axioms Verif.Failures.C94_posix_semaphore_refuted

/-- info: 'Verif.Failures.C94_windows' depends on axioms: [propext, Classical.choice, Quot.sound] -/
#guard_msgs (whitespace := lax) in
#print axioms Verif.Failures.C94_windows

/-- info: 'Verif.Failures.C94_macos' depends on axioms: [propext, Classical.choice, Quot.sound] -/
#guard_msgs (whitespace := lax) in
#print axioms Verif.Failures.C94_macos

/-- info: 'Verif.Failures.C94_timeouts' depends on axioms: [propext, Classical.choice, Quot.sound] -/
#guard_msgs (whitespace := lax) in
#print axioms Verif.Failures.C94_timeouts

/-- info: 'Verif.Failures.C94_cond_status' depends on axioms: [propext, Quot.sound] -/
#guard_msgs (whitespace := lax) in
#print axioms Verif.Failures.C94_cond_status

/-- info: 'Verif.Failures.C94_full_time' depends on axioms: [propext, Classical.choice, Quot.sound] -/
#guard_msgs (whitespace := lax) in
#print axioms Verif.Failures.C94_full_time

/-- info: 'Verif.Failures.C94_shared_data' depends on axioms: [propext, Quot.sound] -/
#guard_msgs (whitespace := lax) in
#print axioms Verif.Failures.C94_shared_data

/-- info: 'Verif.Failures.C95_internal_mutex' depends on axioms: [propext, Quot.sound] -/
#guard_msgs (whitespace := lax) in
#print axioms Verif.Failures.C95_internal_mutex

/-- info: 'Verif.Failures.C95_emulated_timed_mutex_partial' depends on axioms: [propext, Classical.choice, Quot.sound] -/
#guard_msgs (whitespace := lax) in
#print axioms Verif.Failures.C95_emulated_timed_mutex_partial

/-- info: 'Verif.Failures.C95_emulated_timed_mutex_refuted' depends on axioms: [propext, Quot.sound] -/
#guard_msgs (whitespace := lax) in
#print axioms Verif.Failures.C95_emulated_timed_mutex_refuted

/-- info: 'Verif.Failures.C95_user_lock' depends on axioms: [propext, Quot.sound] -/
#guard_msgs (whitespace := lax) in
#print axioms Verif.Failures.C95_user_lock

/-- info: 'Verif.AutoFutex.C96_bounded' depends on axioms: [propext, Classical.choice, Quot.sound] -/
#guard_msgs (whitespace := lax) in
#print axioms Verif.AutoFutex.C96_bounded

/-- info: 'Verif.AutoFutex.C96_not_wait_free' depends on axioms: [propext, Quot.sound] -/
#guard_msgs (whitespace := lax) in
#print axioms Verif.AutoFutex.C96_not_wait_free

/-- info: 'Verif.AutoFutex.C96_rest' depends on axioms: [propext, Classical.choice, Quot.sound] -/
#guard_msgs (whitespace := lax) in
#print axioms Verif.AutoFutex.C96_rest

/-- info: 'Verif.ManualFutex.C96_bounded' depends on axioms: [propext, Classical.choice, Quot.sound] -/
#guard_msgs (whitespace := lax) in
#print axioms Verif.ManualFutex.C96_bounded

/-- info: 'Verif.ManualFutex.C96_rest' depends on axioms: [propext, Classical.choice, Quot.sound] -/
#guard_msgs (whitespace := lax) in
#print axioms Verif.ManualFutex.C96_rest

/-- info: 'Verif.WinMutex.C96_bounded' depends on axioms: [propext, Classical.choice, Quot.sound] -/
#guard_msgs (whitespace := lax) in
#print axioms Verif.WinMutex.C96_bounded

/-- info: 'Verif.WinMutex.C96_rest' depends on axioms: [propext, Classical.choice, Quot.sound] -/
#guard_msgs (whitespace := lax) in
#print axioms Verif.WinMutex.C96_rest

/-- info: 'Verif.Spin.C96_bounded' depends on axioms: [propext, Classical.choice, Quot.sound] -/
#guard_msgs (whitespace := lax) in
#print axioms Verif.Spin.C96_bounded

/-- info: 'Verif.Spin.C96_rest' depends on axioms: [propext, Classical.choice, Quot.sound] -/
#guard_msgs (whitespace := lax) in
#print axioms Verif.Spin.C96_rest

/-- info: 'Verif.SharedSpin.C96_bounded' depends on axioms: [propext, Classical.choice, Quot.sound] -/
#guard_msgs (whitespace := lax) in
#print axioms Verif.SharedSpin.C96_bounded

/-- info: 'Verif.SharedSpin.C96_rest' depends on axioms: [propext, Classical.choice, Quot.sound] -/
#guard_msgs (whitespace := lax) in
#print axioms Verif.SharedSpin.C96_rest

/-- info: 'Verif.AutoSem.C96_bounded' depends on axioms: [propext, Classical.choice, Quot.sound] -/
#guard_msgs (whitespace := lax) in
#print axioms Verif.AutoSem.C96_bounded

/-- info: 'Verif.AutoSem.C96_rest' depends on axioms: [propext, Quot.sound] -/
#guard_msgs (whitespace := lax) in
#print axioms Verif.AutoSem.C96_rest

/-- info: 'Verif.Monitor.C96_bounded' depends on axioms: [propext, Classical.choice, Quot.sound] -/
#guard_msgs (whitespace := lax) in
#print axioms Verif.Monitor.C96_bounded

/-- info: 'Verif.CvAny.C96_bounded' depends on axioms: [propext, Classical.choice, Quot.sound] -/
#guard_msgs (whitespace := lax) in
#print axioms Verif.CvAny.C96_bounded

/-- info: 'Verif.CondVarPosix.C96_bounded' depends on axioms: [propext, Classical.choice, Quot.sound] -/
#guard_msgs (whitespace := lax) in
#print axioms Verif.CondVarPosix.C96_bounded

/-- info: 'Verif.WinCv.C96_settles' depends on axioms: [propext, Classical.choice, Quot.sound] -/
#guard_msgs (whitespace := lax) in
#print axioms Verif.WinCv.C96_settles

/-- info: 'Verif.TimerInit.C96_bounded' depends on axioms: [propext, Classical.choice, Quot.sound] -/
#guard_msgs (whitespace := lax) in
#print axioms Verif.TimerInit.C96_bounded

/-- info: 'Verif.TimerInit.C96_rest' depends on axioms: [propext, Quot.sound] -/
#guard_msgs (whitespace := lax) in
#print axioms Verif.TimerInit.C96_rest

/-- info: 'Verif.TssOnce.C96_bounded' depends on axioms: [propext, Classical.choice, Quot.sound] -/
#guard_msgs (whitespace := lax) in
#print axioms Verif.TssOnce.C96_bounded

/-- info: 'Verif.TssOnce.C96_rest' depends on axioms: [propext, Quot.sound] -/
#guard_msgs (whitespace := lax) in
#print axioms Verif.TssOnce.C96_rest

/-- info: 'Verif.WinCv.C97_semaphore_limit' depends on axioms: [propext, Quot.sound] -/
#guard_msgs (whitespace := lax) in
#print axioms Verif.WinCv.C97_semaphore_limit

/-- info: 'Verif.WinCv.C97_units_available' depends on axioms: [propext, Classical.choice, Quot.sound] -/
#guard_msgs (whitespace := lax) in
#print axioms Verif.WinCv.C97_units_available

/-- info: 'Verif.WinCv.C97_release_can_fail' depends on axioms: [propext, Quot.sound] -/
#guard_msgs (whitespace := lax) in
#print axioms Verif.WinCv.C97_release_can_fail

/-- info: 'Verif.WinCv.C97_stale_wakeups' depends on axioms: [propext, Classical.choice, Quot.sound] -/
#guard_msgs (whitespace := lax) in
#print axioms Verif.WinCv.C97_stale_wakeups

/-- info: 'Verif.Config.C98_any_order' depends on axioms: [propext, Quot.sound] -/
#guard_msgs (whitespace := lax) in
#print axioms Verif.Config.C98_any_order

/-- info: 'Verif.Config.C98_one_platform' depends on axioms: [propext, Quot.sound] -/
#guard_msgs (whitespace := lax) in
#print axioms Verif.Config.C98_one_platform

/-- info: 'Verif.Config.C98_one_implementation' depends on axioms: [propext, Quot.sound] -/
#guard_msgs (whitespace := lax) in
#print axioms Verif.Config.C98_one_implementation

/-- info: 'Verif.Config.C98_use_pthread' depends on axioms: [propext, Quot.sound] -/
#guard_msgs (whitespace := lax) in
#print axioms Verif.Config.C98_use_pthread

/-- info: 'Verif.Config.C98_declared_before_use' depends on axioms: [propext, Quot.sound] -/
#guard_msgs (whitespace := lax) in
#print axioms Verif.Config.C98_declared_before_use

/-- info: 'Verif.Config.C98_event_over_semaphore' depends on axioms: [propext, Quot.sound] -/
#guard_msgs (whitespace := lax) in
#print axioms Verif.Config.C98_event_over_semaphore

/-- info: 'Verif.Config.C98_futex_flags' depends on axioms: [propext, Quot.sound] -/
#guard_msgs (whitespace := lax) in
#print axioms Verif.Config.C98_futex_flags

/-- info: 'Verif.Config.C99_layout_partial' depends on axioms: [propext, Quot.sound] -/
#guard_msgs (whitespace := lax) in
#print axioms Verif.Config.C99_layout_partial

/-- info: 'Verif.Config.C99_timed_mutex_partial' depends on axioms: [propext, Quot.sound] -/
#guard_msgs (whitespace := lax) in
#print axioms Verif.Config.C99_timed_mutex_partial

/-- info: 'Verif.Config.C99_semaphore_partial' depends on axioms: [propext, Quot.sound] -/
#guard_msgs (whitespace := lax) in
#print axioms Verif.Config.C99_semaphore_partial

/-- info: 'Verif.Config.C99_atomic_partial' depends on axioms: [propext, Quot.sound] -/
#guard_msgs (whitespace := lax) in
#print axioms Verif.Config.C99_atomic_partial

/-- info: 'Verif.Config.C99_layout_refuted' depends on axioms: [propext] -/
#guard_msgs (whitespace := lax) in
#print axioms Verif.Config.C99_layout_refuted

/-- info: 'Verif.Config.C99_spin_refuted' depends on axioms: [propext] -/
#guard_msgs (whitespace := lax) in
#print axioms Verif.Config.C99_spin_refuted
