/-!
# Calls of the operating system and how C++ code reacts to their answers

A small language in which the functions of include/boost/sync that call the operating system are written down in
`Verif.Model.Failures`.  A program is run against the list of answers of the system; when the list is exhausted it is
still inside a call.  It records the calls it has made with their answers.

What the language provides corresponds to C++ as follows:

* `sys`: a call of the system; it sets `errno` resp. the value of `GetLastError`,
* `getLastError`: `errno`, `GetLastError()`,
* `throwExc`: `BOOST_SYNC_DETAIL_THROW` (detail/throw_exception.hpp 73-74),
* `verify`: `BOOST_VERIFY`, `BOOST_ASSERT`: in debug builds a false condition stops the program, with `NDEBUG` it is ignored,
* `noexcept`: `BOOST_NOEXCEPT`, destructors: an exception that leaves the function terminates the process,
* `guarded`: a block with a local object whose destructor runs at the end of the block and when an exception leaves it; a
  destructor that throws during the latter terminates the process,
* `rethrowing`: `catch (...) { …; throw; }`,
* `loop`: a loop each round of which begins with a call of the system.
-/

namespace Verif.OsCall

/-- The objects whose waits the code distinguishes by the exceptions it throws: mutexes (basic_mutex_windows.hpp 173,
timed_mutex_windows.hpp 127-194, timed_mutex_posix.hpp 237), condition variables
(basic_condition_variable_windows.hpp 229-432, condition_variable_posix.hpp 210-226), events (basic_event_windows.hpp 89-156), semaphores
(semaphore_windows.hpp 79-174). -/
inductive Obj
  | mutex | cv | event | semaphore
  deriving DecidableEq, Repr

/-- Functions of the operating system, and what else can fail or is decided outside the function. -/
inductive Api
  -- mutex_posix.hpp 74-103, timed_mutex_posix.hpp 100-238, condition_variable_posix.hpp 78-222, pthread_mutex_locks.hpp 43-67
  | pthread_mutex_init | pthread_mutex_destroy | pthread_mutex_lock | pthread_mutex_trylock | pthread_mutex_timedlock
  | pthread_mutex_unlock
  | pthread_cond_init | pthread_cond_destroy | pthread_cond_wait (o : Obj) | pthread_cond_timedwait (o : Obj)
  | pthread_cond_signal | pthread_cond_broadcast
  -- semaphore_posix.hpp 45-148
  | sem_init | sem_destroy | sem_post | sem_wait | sem_trywait | sem_timedwait
  -- basic_event_windows.hpp 50-152, basic_mutex_windows.hpp 73-169, semaphore_windows.hpp 51-159,
  -- basic_condition_variable_windows.hpp 88-420, auto_handle.hpp 63-94
  | CreateEvent | SetEvent (o : Obj) | ResetEvent | CreateSemaphore | ReleaseSemaphore (o : Obj)
  /-- in the destructor of an object that owns the handle, or (`none`) of a handle that is not needed any more
  (basic_mutex_windows.hpp 114, waitable_timer.hpp 100-104, auto_handle.hpp 63) -/
  | CloseHandle (o : Option Obj)
  | DuplicateHandle
  /-- `WaitForSingleObject(…, infinite)` -/
  | waitInfinite (o : Obj)
  /-- `WaitForSingleObject` with a number of milliseconds -/
  | waitFor (o : Obj) (ms : UInt32)
  | WaitForMultipleObjects (o : Obj) | SetWaitableTimer (o : Obj)
  -- waitable_timer.hpp 166-275
  | OpenSemaphore | CreateNamedSemaphore | TlsAlloc | TlsFree | get_proc_address | NtQuerySemaphore | TlsGetValue
  | RegisterWait | UnregisterWait | CreateTimer | TlsSetValue | atexit
  /-- `boost_version` of the context found in the TLS slot: 0 if it is `BOOST_VERSION` (waitable_timer.hpp 314) -/
  | boost_version
  -- basic_semaphore_mach.hpp 49-153
  | semaphore_create | semaphore_destroy | semaphore_signal | semaphore_signal_all | semaphore_wait | semaphore_timedwait
  -- semaphore_dispatch.hpp 48-123
  | dispatch_semaphore_create | dispatch_release | dispatch_semaphore_signal | dispatch_semaphore_wait
  /-- `operator new` (basic_condition_variable_windows.hpp 291, 314, waitable_timer.hpp 247) -/
  | new
  /-- the value of shared memory that the code reads, or replaces by an atomic operation -/
  | mem
  /-- `lock` and `unlock` of an object of the user (basic_condition_variable_windows.hpp 121, 126, condition_variable_any_generic.hpp 56,
  61): 0 or an exception -/
  | userLock | userUnlock
  deriving DecidableEq, Repr

/-- What the system answers (mutex_posix.hpp 74-103, semaphore_posix.hpp 45-152, basic_event_windows.hpp 50-155,
basic_semaphore_mach.hpp 49-153): the result (a handle is 0 if it is null) and the value of `errno` resp. `GetLastError` after
the call. -/
structure Ans where
  res : UInt32
  err : UInt32
  deriving DecidableEq, Repr

/-- A call of the system with its answer (e.g. mutex_posix.hpp 89). -/
structure Call where
  api : Api
  ans : Ans
  deriving DecidableEq, Repr

/-- The classes of exceptions: include/boost/sync/exceptions/lock_error.hpp, wait_error.hpp, resource_error.hpp, overflow_error.hpp,
runtime_exception.hpp (the base class of the others), `std::bad_alloc`, `std::logic_error` (waitable_timer.hpp 315), and exceptions
of the user. -/
inductive Cls
  | lockError | waitError | resourceError | overflowError | runtimeException | badAlloc | logicError | user
  deriving DecidableEq, Repr

/-- The error code in an exception (runtime_exception.hpp 41-57): a code of the system, or a constant of `errc`
(basic_semaphore_mach.hpp 51, 79-89, 163-170, semaphore_dispatch.hpp 50). -/
inductive Code
  | os (n : UInt32)
  | not_enough_memory | invalid_argument | operation_canceled
  /-- the exception has none -/
  | none
  deriving DecidableEq, Repr

/-- An exception (exceptions/runtime_exception.hpp 33-64). -/
structure Exc where
  cls : Cls
  code : Code
  deriving DecidableEq, Repr

/-- How far a program has come.  `assertion`: `BOOST_ASSERT` or `BOOST_VERIFY` has stopped the program (e.g. semaphore_posix.hpp 94);
`terminated`: `std::terminate` (e.g. an exception in basic_mutex_windows.hpp 82-93). -/
inductive Out (α : Type)
  /-- inside a call of the system -/
  | pending
  | ret (a : α)
  | threw (e : Exc)
  | assertion
  | terminated
  deriving DecidableEq, Repr

/-- What a program has done: how it ended, its calls, the last error code (`errno`, semaphore_posix.hpp 48; `GetLastError`, basic_event_windows.hpp
53) and the answers left over. -/
structure Res (α : Type) (n : Nat) where
  out : Out α
  log : List Call
  err : UInt32
  rest : List Ans
  le : rest.length ≤ n

/-- A function that calls the operating system, e.g. mutex_posix.hpp 87-94: from the last error code and the answers of the system. -/
def M (α : Type) : Type := (err : UInt32) → (as : List Ans) → Res α as.length

/-- Sequential composition of statements (e.g. timed_mutex_posix.hpp 100-108). -/
def bind {α β : Type} (m : M α) (f : α → M β) : M β := fun e as =>
  let r := m e as
  match r.out with
  | .ret a =>
    let r' := f a r.err r.rest
    ⟨r'.out, r.log ++ r'.log, r'.err, r'.rest, Nat.le_trans r'.le r.le⟩
  | .pending => ⟨.pending, r.log, r.err, r.rest, r.le⟩
  | .threw x => ⟨.threw x, r.log, r.err, r.rest, r.le⟩
  | .assertion => ⟨.assertion, r.log, r.err, r.rest, r.le⟩
  | .terminated => ⟨.terminated, r.log, r.err, r.rest, r.le⟩

/-- Statements in sequence, `return` (e.g. mutex_posix.hpp 101-110). -/
instance : Monad M where
  pure a := fun e as => ⟨.ret a, [], e, as, Nat.le_refl _⟩
  bind := bind

/-- A call of the system (e.g. mutex_posix.hpp 89). -/
def sys (a : Api) : M Ans := fun e as =>
  match as with
  | [] => ⟨.pending, [], e, [], Nat.le_refl _⟩
  | r :: rest => ⟨.ret r, [⟨a, r⟩], r.err, rest, Nat.le_succ _⟩

/-- `errno` (semaphore_posix.hpp 48, 64, 87), `GetLastError()` (basic_event_windows.hpp 53). -/
def getLastError : M UInt32 := fun e as => ⟨.ret e, [], e, as, Nat.le_refl _⟩

/-- `BOOST_SYNC_DETAIL_THROW` (detail/throw_exception.hpp 73-74). -/
def throwExc {α : Type} (c : Cls) (code : Code) : M α := fun e as => ⟨.threw ⟨c, code⟩, [], e, as, Nat.le_refl _⟩

/-- `BOOST_VERIFY(cond)`, `BOOST_ASSERT(cond)` (e.g. mutex_posix.hpp 98, semaphore_posix.hpp 94); `debug`: `NDEBUG` is not defined. -/
def verify (debug cond : Bool) : M Unit := fun e as =>
  if debug && !cond then ⟨.assertion, [], e, as, Nat.le_refl _⟩ else ⟨.ret (), [], e, as, Nat.le_refl _⟩

/-- `BOOST_NOEXCEPT` (e.g. basic_mutex_windows.hpp 82) and destructors. -/
def noexcept {α : Type} (m : M α) : M α := fun e as =>
  let r := m e as
  match r.out with
  | .threw _ => ⟨.terminated, r.log, r.err, r.rest, r.le⟩
  | _ => r

/-- A block with a local object whose destructor is `dtor`: `lock_guard` (locks/lock_guard.hpp 47-59), `relocker`
(basic_condition_variable_windows.hpp 107-132, condition_variable_any_generic.hpp 44-64). -/
def guarded {α : Type} (m : M α) (dtor : M Unit) : M α := fun e as =>
  let r := m e as
  match r.out with
  | .ret a =>
    let r' := dtor r.err r.rest
    let o := match r'.out with
      | .ret _ => .ret a
      | .threw x => .threw x
      | .pending => .pending
      | .assertion => .assertion
      | .terminated => .terminated
    ⟨o, r.log ++ r'.log, r'.err, r'.rest, Nat.le_trans r'.le r.le⟩
  | .threw x =>
    let r' := dtor r.err r.rest
    let o := match r'.out with
      | .ret _ => .threw x
      | .threw _ => .terminated
      | .pending => .pending
      | .assertion => .assertion
      | .terminated => .terminated
    ⟨o, r.log ++ r'.log, r'.err, r'.rest, Nat.le_trans r'.le r.le⟩
  | _ => r

/-- `try { m } catch (...) { handler; throw; }` (basic_mutex_windows.hpp 163-182, timed_mutex_windows.hpp 117-162, 172-208). -/
def rethrowing {α : Type} (m : M α) (handler : M Unit) : M α := fun e as =>
  let r := m e as
  match r.out with
  | .threw x =>
    let r' := handler r.err r.rest
    let o := match r'.out with
      | .ret _ => .threw x
      | .threw y => .threw y
      | .pending => .pending
      | .assertion => .assertion
      | .terminated => .terminated
    ⟨o, r.log ++ r'.log, r'.err, r'.rest, Nat.le_trans r'.le r.le⟩
  | _ => r

/-- A loop each round of which begins with the call `api s` of the system (e.g. semaphore_posix.hpp 81-98); `.inl`: the next round, `.inr`: `return`
or `break`. -/
def loop {σ α : Type} (api : σ → Api) (body : σ → Ans → M (σ ⊕ α)) (s : σ) : M α := fun e as =>
  match as with
  | [] => ⟨.pending, [], e, [], Nat.le_refl _⟩
  | a :: as' =>
    let r := body s a a.err as'
    match r.out with
    | .ret (.inl s') =>
      have : r.rest.length < as'.length + 1 := Nat.lt_succ_of_le r.le
      let r' := loop api body s' r.err r.rest
      ⟨r'.out, ⟨api s, a⟩ :: (r.log ++ r'.log), r'.err, r'.rest, Nat.le_succ_of_le (Nat.le_trans r'.le r.le)⟩
    | .ret (.inr x) => ⟨.ret x, ⟨api s, a⟩ :: r.log, r.err, r.rest, Nat.le_succ_of_le r.le⟩
    | .pending => ⟨.pending, ⟨api s, a⟩ :: r.log, r.err, r.rest, Nat.le_succ_of_le r.le⟩
    | .threw x => ⟨.threw x, ⟨api s, a⟩ :: r.log, r.err, r.rest, Nat.le_succ_of_le r.le⟩
    | .assertion => ⟨.assertion, ⟨api s, a⟩ :: r.log, r.err, r.rest, Nat.le_succ_of_le r.le⟩
    | .terminated => ⟨.terminated, ⟨api s, a⟩ :: r.log, r.err, r.rest, Nat.le_succ_of_le r.le⟩
  termination_by _ as => as.length

end Verif.OsCall
