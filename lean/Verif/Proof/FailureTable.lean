import Verif.Spec.Failures

/-! The values of the specification for each call. -/

namespace Verif.Spec.Failures

open Verif.OsCall

variable (r : Ans) (o : Obj) (t : UInt32) (b : Bool)

@[simp] theorem mt_pthread_mutex_init : mustThrow ⟨.pthread_mutex_init, r⟩ = if r.res = 0 then none else some ⟨.resourceError, .os r.res⟩ := rfl
@[simp] theorem ms_pthread_mutex_init : misused ⟨.pthread_mutex_init, r⟩ = false := rfl
@[simp] theorem dc_pthread_mutex_init : Documented b ⟨.pthread_mutex_init, r⟩ = (b = true ∨ r.res ≠ 4) := rfl
@[simp] theorem mt_pthread_mutex_destroy : mustThrow ⟨.pthread_mutex_destroy, r⟩ = none := rfl
@[simp] theorem ms_pthread_mutex_destroy : misused ⟨.pthread_mutex_destroy, r⟩ = decide (r.res ≠ 0 ∧ r.res ≠ 4) := rfl
@[simp] theorem dc_pthread_mutex_destroy : Documented b ⟨.pthread_mutex_destroy, r⟩ = (b = true ∨ r.res ≠ 4) := rfl
@[simp] theorem mt_pthread_mutex_lock : mustThrow ⟨.pthread_mutex_lock, r⟩ = if r.res = 0 ∨ r.res = 4 then none else some ⟨.lockError, .os r.res⟩ := rfl
@[simp] theorem ms_pthread_mutex_lock : misused ⟨.pthread_mutex_lock, r⟩ = false := rfl
@[simp] theorem dc_pthread_mutex_lock : Documented b ⟨.pthread_mutex_lock, r⟩ = (b = true ∨ r.res ≠ 4) := rfl
@[simp] theorem mt_pthread_mutex_trylock : mustThrow ⟨.pthread_mutex_trylock, r⟩ = if r.res = 0 ∨ r.res = 4 ∨ r.res = 16 then none else some ⟨.lockError, .os r.res⟩ := rfl
@[simp] theorem ms_pthread_mutex_trylock : misused ⟨.pthread_mutex_trylock, r⟩ = false := rfl
@[simp] theorem dc_pthread_mutex_trylock : Documented b ⟨.pthread_mutex_trylock, r⟩ = (b = true ∨ r.res ≠ 4) := rfl
@[simp] theorem mt_pthread_mutex_timedlock : mustThrow ⟨.pthread_mutex_timedlock, r⟩ = if r.res = 0 ∨ r.res = 4 ∨ r.res = 110 then none else some ⟨.lockError, .os r.res⟩ := rfl
@[simp] theorem ms_pthread_mutex_timedlock : misused ⟨.pthread_mutex_timedlock, r⟩ = false := rfl
@[simp] theorem dc_pthread_mutex_timedlock : Documented b ⟨.pthread_mutex_timedlock, r⟩ = (b = true ∨ r.res ≠ 4) := rfl
@[simp] theorem mt_pthread_mutex_unlock : mustThrow ⟨.pthread_mutex_unlock, r⟩ = none := rfl
@[simp] theorem ms_pthread_mutex_unlock : misused ⟨.pthread_mutex_unlock, r⟩ = decide (r.res ≠ 0 ∧ r.res ≠ 4) := rfl
@[simp] theorem dc_pthread_mutex_unlock : Documented b ⟨.pthread_mutex_unlock, r⟩ = (b = true ∨ r.res ≠ 4) := rfl
@[simp] theorem mt_pthread_cond_init : mustThrow ⟨.pthread_cond_init, r⟩ = if r.res = 0 then none else some ⟨.resourceError, .os r.res⟩ := rfl
@[simp] theorem ms_pthread_cond_init : misused ⟨.pthread_cond_init, r⟩ = false := rfl
@[simp] theorem dc_pthread_cond_init : Documented b ⟨.pthread_cond_init, r⟩ = (b = true ∨ r.res ≠ 4) := rfl
@[simp] theorem mt_pthread_cond_destroy : mustThrow ⟨.pthread_cond_destroy, r⟩ = none := rfl
@[simp] theorem ms_pthread_cond_destroy : misused ⟨.pthread_cond_destroy, r⟩ = decide (r.res ≠ 0 ∧ r.res ≠ 4) := rfl
@[simp] theorem dc_pthread_cond_destroy : Documented b ⟨.pthread_cond_destroy, r⟩ = (b = true ∨ r.res ≠ 4) := rfl
@[simp] theorem mt_pthread_cond_wait_o : mustThrow ⟨.pthread_cond_wait o, r⟩ = if r.res = 0 ∨ r.res = 4 then none else some ⟨waitCls o, .os r.res⟩ := rfl
@[simp] theorem ms_pthread_cond_wait_o : misused ⟨.pthread_cond_wait o, r⟩ = false := rfl
@[simp] theorem dc_pthread_cond_wait_o : Documented b ⟨.pthread_cond_wait o, r⟩ = (b = true ∨ r.res ≠ 4) := rfl
@[simp] theorem mt_pthread_cond_timedwait_o : mustThrow ⟨.pthread_cond_timedwait o, r⟩ = if r.res = 0 ∨ r.res = 4 ∨ r.res = 110 then none else some ⟨waitCls o, .os r.res⟩ := rfl
@[simp] theorem ms_pthread_cond_timedwait_o : misused ⟨.pthread_cond_timedwait o, r⟩ = false := rfl
@[simp] theorem dc_pthread_cond_timedwait_o : Documented b ⟨.pthread_cond_timedwait o, r⟩ = (b = true ∨ r.res ≠ 4) := rfl
@[simp] theorem mt_pthread_cond_signal : mustThrow ⟨.pthread_cond_signal, r⟩ = none := rfl
@[simp] theorem ms_pthread_cond_signal : misused ⟨.pthread_cond_signal, r⟩ = decide (r.res ≠ 0) := rfl
@[simp] theorem dc_pthread_cond_signal : Documented b ⟨.pthread_cond_signal, r⟩ = (b = true ∨ r.res ≠ 4) := rfl
@[simp] theorem mt_pthread_cond_broadcast : mustThrow ⟨.pthread_cond_broadcast, r⟩ = none := rfl
@[simp] theorem ms_pthread_cond_broadcast : misused ⟨.pthread_cond_broadcast, r⟩ = decide (r.res ≠ 0) := rfl
@[simp] theorem dc_pthread_cond_broadcast : Documented b ⟨.pthread_cond_broadcast, r⟩ = (b = true ∨ r.res ≠ 4) := rfl
@[simp] theorem mt_sem_init : mustThrow ⟨.sem_init, r⟩ = if r.res = 0 then none else some ⟨.resourceError, .os r.err⟩ := rfl
@[simp] theorem ms_sem_init : misused ⟨.sem_init, r⟩ = false := rfl
@[simp] theorem dc_sem_init : Documented b ⟨.sem_init, r⟩ = (True) := rfl
@[simp] theorem mt_sem_destroy : mustThrow ⟨.sem_destroy, r⟩ = none := rfl
@[simp] theorem ms_sem_destroy : misused ⟨.sem_destroy, r⟩ = decide (r.res ≠ 0) := rfl
@[simp] theorem dc_sem_destroy : Documented b ⟨.sem_destroy, r⟩ = (True) := rfl
@[simp] theorem mt_sem_post : mustThrow ⟨.sem_post, r⟩ = if r.res = 0 ∨ r.err = 22 then none else some ⟨if r.err = 75 then .overflowError else .runtimeException, .os r.err⟩ := rfl
@[simp] theorem ms_sem_post : misused ⟨.sem_post, r⟩ = decide (r.res ≠ 0 ∧ r.err = 22) := rfl
@[simp] theorem dc_sem_post : Documented b ⟨.sem_post, r⟩ = (r.res = 0 ∨ r.err = 22 ∨ r.err = 75) := rfl
@[simp] theorem mt_sem_wait : mustThrow ⟨.sem_wait, r⟩ = if r.res = 0 ∨ r.err = 4 ∨ r.err = 22 then none else some ⟨.waitError, .os r.err⟩ := rfl
@[simp] theorem ms_sem_wait : misused ⟨.sem_wait, r⟩ = decide (r.res ≠ 0 ∧ r.err = 22) := rfl
@[simp] theorem dc_sem_wait : Documented b ⟨.sem_wait, r⟩ = (r.res = 0 ∨ r.err = 4 ∨ r.err = 22 ∨ r.err = 35) := rfl
@[simp] theorem mt_sem_trywait : mustThrow ⟨.sem_trywait, r⟩ = if r.res = 0 ∨ r.err = 4 ∨ r.err = 11 ∨ r.err = 22 then none else some ⟨.waitError, .os r.err⟩ := rfl
@[simp] theorem ms_sem_trywait : misused ⟨.sem_trywait, r⟩ = decide (r.res ≠ 0 ∧ r.err = 22) := rfl
@[simp] theorem dc_sem_trywait : Documented b ⟨.sem_trywait, r⟩ = (r.res = 0 ∨ r.err = 4 ∨ r.err = 11 ∨ r.err = 22 ∨ r.err = 35) := rfl
@[simp] theorem mt_sem_timedwait : mustThrow ⟨.sem_timedwait, r⟩ = if r.res = 0 ∨ r.err = 4 ∨ r.err = 22 ∨ r.err = 110 then none else some ⟨.waitError, .os r.err⟩ := rfl
@[simp] theorem ms_sem_timedwait : misused ⟨.sem_timedwait, r⟩ = decide (r.res ≠ 0 ∧ r.err = 22) := rfl
@[simp] theorem dc_sem_timedwait : Documented b ⟨.sem_timedwait, r⟩ = (r.res = 0 ∨ r.err = 4 ∨ r.err = 22 ∨ r.err = 35 ∨ r.err = 110) := rfl
@[simp] theorem mt_CreateEvent : mustThrow ⟨.CreateEvent, r⟩ = if r.res = 0 then some ⟨.resourceError, .os r.err⟩ else none := rfl
@[simp] theorem ms_CreateEvent : misused ⟨.CreateEvent, r⟩ = false := rfl
@[simp] theorem dc_CreateEvent : Documented b ⟨.CreateEvent, r⟩ = (True) := rfl
@[simp] theorem mt_SetEvent_event : mustThrow ⟨.SetEvent .event, r⟩ = if r.res = 0 then some ⟨.runtimeException, .os r.err⟩ else none := rfl
@[simp] theorem ms_SetEvent_event : misused ⟨.SetEvent .event, r⟩ = false := rfl
@[simp] theorem dc_SetEvent_event : Documented b ⟨.SetEvent .event, r⟩ = (True) := rfl
@[simp] theorem mt_SetEvent_mutex : mustThrow ⟨.SetEvent .mutex, r⟩ = none := rfl
@[simp] theorem ms_SetEvent_mutex : misused ⟨.SetEvent .mutex, r⟩ = decide (r.res = 0) := rfl
@[simp] theorem dc_SetEvent_mutex : Documented b ⟨.SetEvent .mutex, r⟩ = (True) := rfl
@[simp] theorem mt_ResetEvent : mustThrow ⟨.ResetEvent, r⟩ = if r.res = 0 then some ⟨.runtimeException, .os r.err⟩ else none := rfl
@[simp] theorem ms_ResetEvent : misused ⟨.ResetEvent, r⟩ = false := rfl
@[simp] theorem dc_ResetEvent : Documented b ⟨.ResetEvent, r⟩ = (True) := rfl
@[simp] theorem mt_CreateSemaphore : mustThrow ⟨.CreateSemaphore, r⟩ = if r.res = 0 then some ⟨.resourceError, .os r.err⟩ else none := rfl
@[simp] theorem ms_CreateSemaphore : misused ⟨.CreateSemaphore, r⟩ = false := rfl
@[simp] theorem dc_CreateSemaphore : Documented b ⟨.CreateSemaphore, r⟩ = (True) := rfl
@[simp] theorem mt_ReleaseSemaphore_semaphore : mustThrow ⟨.ReleaseSemaphore .semaphore, r⟩ = if r.res = 0 then some ⟨if r.err = 298 then .overflowError else .runtimeException, .os r.err⟩ else none := rfl
@[simp] theorem ms_ReleaseSemaphore_semaphore : misused ⟨.ReleaseSemaphore .semaphore, r⟩ = false := rfl
@[simp] theorem dc_ReleaseSemaphore_semaphore : Documented b ⟨.ReleaseSemaphore .semaphore, r⟩ = (True) := rfl
@[simp] theorem mt_ReleaseSemaphore_cv : mustThrow ⟨.ReleaseSemaphore .cv, r⟩ = none := rfl
@[simp] theorem ms_ReleaseSemaphore_cv : misused ⟨.ReleaseSemaphore .cv, r⟩ = decide (r.res = 0) := rfl
@[simp] theorem dc_ReleaseSemaphore_cv : Documented b ⟨.ReleaseSemaphore .cv, r⟩ = (True) := rfl
@[simp] theorem mt_CloseHandle_none : mustThrow ⟨.CloseHandle none, r⟩ = none := rfl
@[simp] theorem ms_CloseHandle_none : misused ⟨.CloseHandle none, r⟩ = false := rfl
@[simp] theorem dc_CloseHandle_none : Documented b ⟨.CloseHandle none, r⟩ = (True) := rfl
@[simp] theorem mt_CloseHandle_some_o : mustThrow ⟨.CloseHandle (some o), r⟩ = none := rfl
@[simp] theorem ms_CloseHandle_some_o : misused ⟨.CloseHandle (some o), r⟩ = decide (r.res = 0) := rfl
@[simp] theorem dc_CloseHandle_some_o : Documented b ⟨.CloseHandle (some o), r⟩ = (True) := rfl
@[simp] theorem mt_DuplicateHandle : mustThrow ⟨.DuplicateHandle, r⟩ = if r.res = 0 then some ⟨.resourceError, .os r.err⟩ else none := rfl
@[simp] theorem ms_DuplicateHandle : misused ⟨.DuplicateHandle, r⟩ = false := rfl
@[simp] theorem dc_DuplicateHandle : Documented b ⟨.DuplicateHandle, r⟩ = (True) := rfl
@[simp] theorem mt_waitInfinite_o : mustThrow ⟨.waitInfinite o, r⟩ = if r.res = 0 then none else some ⟨waitCls o, .os r.err⟩ := rfl
@[simp] theorem ms_waitInfinite_o : misused ⟨.waitInfinite o, r⟩ = false := rfl
@[simp] theorem dc_waitInfinite_o : Documented b ⟨.waitInfinite o, r⟩ = (r.res = 0 ∨ r.res = 0xFFFFFFFF) := rfl
@[simp] theorem mt_waitFor_o_t : mustThrow ⟨.waitFor o t, r⟩ = if r.res = 0 ∨ r.res = 0x102 then none else some ⟨waitCls o, .os r.err⟩ := rfl
@[simp] theorem ms_waitFor_o_t : misused ⟨.waitFor o t, r⟩ = false := rfl
@[simp] theorem dc_waitFor_o_t : Documented b ⟨.waitFor o t, r⟩ = (r.res = 0 ∨ r.res = 0x102 ∨ r.res = 0xFFFFFFFF) := rfl
@[simp] theorem mt_WaitForMultipleObjects_o : mustThrow ⟨.WaitForMultipleObjects o, r⟩ = if r.res = 0xFFFFFFFF then some ⟨waitCls o, .os r.err⟩ else none := rfl
@[simp] theorem ms_WaitForMultipleObjects_o : misused ⟨.WaitForMultipleObjects o, r⟩ = false := rfl
@[simp] theorem dc_WaitForMultipleObjects_o : Documented b ⟨.WaitForMultipleObjects o, r⟩ = (r.res = 0 ∨ r.res = 1 ∨ r.res = 0xFFFFFFFF) := rfl
@[simp] theorem mt_SetWaitableTimer_o : mustThrow ⟨.SetWaitableTimer o, r⟩ = if r.res = 0 then some ⟨waitCls o, .os r.err⟩ else none := rfl
@[simp] theorem ms_SetWaitableTimer_o : misused ⟨.SetWaitableTimer o, r⟩ = false := rfl
@[simp] theorem dc_SetWaitableTimer_o : Documented b ⟨.SetWaitableTimer o, r⟩ = (True) := rfl
@[simp] theorem mt_OpenSemaphore : mustThrow ⟨.OpenSemaphore, r⟩ = none := rfl
@[simp] theorem ms_OpenSemaphore : misused ⟨.OpenSemaphore, r⟩ = false := rfl
@[simp] theorem dc_OpenSemaphore : Documented b ⟨.OpenSemaphore, r⟩ = (True) := rfl
@[simp] theorem mt_CreateNamedSemaphore : mustThrow ⟨.CreateNamedSemaphore, r⟩ = none := rfl
@[simp] theorem ms_CreateNamedSemaphore : misused ⟨.CreateNamedSemaphore, r⟩ = false := rfl
@[simp] theorem dc_CreateNamedSemaphore : Documented b ⟨.CreateNamedSemaphore, r⟩ = (True) := rfl
@[simp] theorem mt_TlsAlloc : mustThrow ⟨.TlsAlloc, r⟩ = if r.res = 0xFFFFFFFF then some ⟨.resourceError, .os r.err⟩ else none := rfl
@[simp] theorem ms_TlsAlloc : misused ⟨.TlsAlloc, r⟩ = false := rfl
@[simp] theorem dc_TlsAlloc : Documented b ⟨.TlsAlloc, r⟩ = (True) := rfl
@[simp] theorem mt_TlsFree : mustThrow ⟨.TlsFree, r⟩ = none := rfl
@[simp] theorem ms_TlsFree : misused ⟨.TlsFree, r⟩ = false := rfl
@[simp] theorem dc_TlsFree : Documented b ⟨.TlsFree, r⟩ = (True) := rfl
@[simp] theorem mt_get_proc_address : mustThrow ⟨.get_proc_address, r⟩ = none := rfl
@[simp] theorem ms_get_proc_address : misused ⟨.get_proc_address, r⟩ = false := rfl
@[simp] theorem dc_get_proc_address : Documented b ⟨.get_proc_address, r⟩ = (True) := rfl
@[simp] theorem mt_NtQuerySemaphore : mustThrow ⟨.NtQuerySemaphore, r⟩ = none := rfl
@[simp] theorem ms_NtQuerySemaphore : misused ⟨.NtQuerySemaphore, r⟩ = false := rfl
@[simp] theorem dc_NtQuerySemaphore : Documented b ⟨.NtQuerySemaphore, r⟩ = (True) := rfl
@[simp] theorem mt_TlsGetValue : mustThrow ⟨.TlsGetValue, r⟩ = none := rfl
@[simp] theorem ms_TlsGetValue : misused ⟨.TlsGetValue, r⟩ = false := rfl
@[simp] theorem dc_TlsGetValue : Documented b ⟨.TlsGetValue, r⟩ = (True) := rfl
@[simp] theorem mt_RegisterWait : mustThrow ⟨.RegisterWait, r⟩ = if r.res = 0 then some ⟨.resourceError, .os r.err⟩ else none := rfl
@[simp] theorem ms_RegisterWait : misused ⟨.RegisterWait, r⟩ = false := rfl
@[simp] theorem dc_RegisterWait : Documented b ⟨.RegisterWait, r⟩ = (True) := rfl
@[simp] theorem mt_UnregisterWait : mustThrow ⟨.UnregisterWait, r⟩ = none := rfl
@[simp] theorem ms_UnregisterWait : misused ⟨.UnregisterWait, r⟩ = false := rfl
@[simp] theorem dc_UnregisterWait : Documented b ⟨.UnregisterWait, r⟩ = (True) := rfl
@[simp] theorem mt_CreateTimer : mustThrow ⟨.CreateTimer, r⟩ = if r.res = 0 then some ⟨.resourceError, .os r.err⟩ else none := rfl
@[simp] theorem ms_CreateTimer : misused ⟨.CreateTimer, r⟩ = false := rfl
@[simp] theorem dc_CreateTimer : Documented b ⟨.CreateTimer, r⟩ = (True) := rfl
@[simp] theorem mt_TlsSetValue : mustThrow ⟨.TlsSetValue, r⟩ = if r.res = 0 then some ⟨.resourceError, .os r.err⟩ else none := rfl
@[simp] theorem ms_TlsSetValue : misused ⟨.TlsSetValue, r⟩ = false := rfl
@[simp] theorem dc_TlsSetValue : Documented b ⟨.TlsSetValue, r⟩ = (True) := rfl
@[simp] theorem mt_atexit : mustThrow ⟨.atexit, r⟩ = none := rfl
@[simp] theorem ms_atexit : misused ⟨.atexit, r⟩ = false := rfl
@[simp] theorem dc_atexit : Documented b ⟨.atexit, r⟩ = (True) := rfl
@[simp] theorem mt_boost_version : mustThrow ⟨.boost_version, r⟩ = if r.res = 0 then none else some ⟨.logicError, .none⟩ := rfl
@[simp] theorem ms_boost_version : misused ⟨.boost_version, r⟩ = false := rfl
@[simp] theorem dc_boost_version : Documented b ⟨.boost_version, r⟩ = (True) := rfl
@[simp] theorem mt_semaphore_create : mustThrow ⟨.semaphore_create, r⟩ = if r.res = 0 then none else some ⟨.resourceError, .not_enough_memory⟩ := rfl
@[simp] theorem ms_semaphore_create : misused ⟨.semaphore_create, r⟩ = false := rfl
@[simp] theorem dc_semaphore_create : Documented b ⟨.semaphore_create, r⟩ = (True) := rfl
@[simp] theorem mt_semaphore_destroy : mustThrow ⟨.semaphore_destroy, r⟩ = none := rfl
@[simp] theorem ms_semaphore_destroy : misused ⟨.semaphore_destroy, r⟩ = decide (r.res ≠ 0) := rfl
@[simp] theorem dc_semaphore_destroy : Documented b ⟨.semaphore_destroy, r⟩ = (True) := rfl
@[simp] theorem mt_semaphore_signal : mustThrow ⟨.semaphore_signal, r⟩ = none := rfl
@[simp] theorem ms_semaphore_signal : misused ⟨.semaphore_signal, r⟩ = decide (r.res ≠ 0) := rfl
@[simp] theorem dc_semaphore_signal : Documented b ⟨.semaphore_signal, r⟩ = (True) := rfl
@[simp] theorem mt_semaphore_signal_all : mustThrow ⟨.semaphore_signal_all, r⟩ = none := rfl
@[simp] theorem ms_semaphore_signal_all : misused ⟨.semaphore_signal_all, r⟩ = decide (r.res ≠ 0) := rfl
@[simp] theorem dc_semaphore_signal_all : Documented b ⟨.semaphore_signal_all, r⟩ = (True) := rfl
@[simp] theorem mt_semaphore_wait : mustThrow ⟨.semaphore_wait, r⟩ = if r.res = 0 ∨ r.res = 14 then none else some ⟨.waitError, if r.res = 4 ∨ r.res = 37 then .invalid_argument else .operation_canceled⟩ := rfl
@[simp] theorem ms_semaphore_wait : misused ⟨.semaphore_wait, r⟩ = false := rfl
@[simp] theorem dc_semaphore_wait : Documented b ⟨.semaphore_wait, r⟩ = (True) := rfl
@[simp] theorem mt_semaphore_timedwait : mustThrow ⟨.semaphore_timedwait, r⟩ = if r.res = 0 ∨ r.res = 14 ∨ r.res = 49 then none else some ⟨.waitError, if r.res = 4 ∨ r.res = 37 then .invalid_argument else .operation_canceled⟩ := rfl
@[simp] theorem ms_semaphore_timedwait : misused ⟨.semaphore_timedwait, r⟩ = false := rfl
@[simp] theorem dc_semaphore_timedwait : Documented b ⟨.semaphore_timedwait, r⟩ = (True) := rfl
@[simp] theorem mt_dispatch_semaphore_create : mustThrow ⟨.dispatch_semaphore_create, r⟩ = if r.res = 0 then some ⟨.resourceError, .not_enough_memory⟩ else none := rfl
@[simp] theorem ms_dispatch_semaphore_create : misused ⟨.dispatch_semaphore_create, r⟩ = false := rfl
@[simp] theorem dc_dispatch_semaphore_create : Documented b ⟨.dispatch_semaphore_create, r⟩ = (True) := rfl
@[simp] theorem mt_dispatch_semaphore_signal : mustThrow ⟨.dispatch_semaphore_signal, r⟩ = none := rfl
@[simp] theorem ms_dispatch_semaphore_signal : misused ⟨.dispatch_semaphore_signal, r⟩ = false := rfl
@[simp] theorem dc_dispatch_semaphore_signal : Documented b ⟨.dispatch_semaphore_signal, r⟩ = (True) := rfl
@[simp] theorem mt_dispatch_semaphore_wait : mustThrow ⟨.dispatch_semaphore_wait, r⟩ = none := rfl
@[simp] theorem ms_dispatch_semaphore_wait : misused ⟨.dispatch_semaphore_wait, r⟩ = false := rfl
@[simp] theorem dc_dispatch_semaphore_wait : Documented b ⟨.dispatch_semaphore_wait, r⟩ = (True) := rfl
@[simp] theorem mt_dispatch_release : mustThrow ⟨.dispatch_release, r⟩ = none := rfl
@[simp] theorem ms_dispatch_release : misused ⟨.dispatch_release, r⟩ = false := rfl
@[simp] theorem dc_dispatch_release : Documented b ⟨.dispatch_release, r⟩ = (True) := rfl
@[simp] theorem mt_new : mustThrow ⟨.new, r⟩ = if r.res = 0 then some ⟨.badAlloc, .none⟩ else none := rfl
@[simp] theorem ms_new : misused ⟨.new, r⟩ = false := rfl
@[simp] theorem dc_new : Documented b ⟨.new, r⟩ = (True) := rfl
@[simp] theorem mt_mem : mustThrow ⟨.mem, r⟩ = none := rfl
@[simp] theorem ms_mem : misused ⟨.mem, r⟩ = false := rfl
@[simp] theorem dc_mem : Documented b ⟨.mem, r⟩ = (True) := rfl
@[simp] theorem mt_userLock : mustThrow ⟨.userLock, r⟩ = if r.res = 0 then none else some ⟨.user, .os r.res⟩ := rfl
@[simp] theorem ms_userLock : misused ⟨.userLock, r⟩ = false := rfl
@[simp] theorem dc_userLock : Documented b ⟨.userLock, r⟩ = (True) := rfl
@[simp] theorem mt_userUnlock : mustThrow ⟨.userUnlock, r⟩ = if r.res = 0 then none else some ⟨.user, .os r.res⟩ := rfl
@[simp] theorem ms_userUnlock : misused ⟨.userUnlock, r⟩ = false := rfl
@[simp] theorem dc_userUnlock : Documented b ⟨.userUnlock, r⟩ = (True) := rfl

end Verif.Spec.Failures
