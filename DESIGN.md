# Formal model of Boost.Sync (Lean 4)

## 1. Trusted base

* Lean 4.33.0's kernel.
* Axioms: no theorem depends on anything but Lean's three standard axioms (`propext`, `Classical.choice`, `Quot.sound`).
  `lean/Verif/Audit.lean` states, for every theorem of the manifest, exactly which of the three it depends on
  (`#guard_msgs in #print axioms`), so that the build fails if a dependency changes.  It is written by `tools/audit.py`.
* No own axioms, no `sorry`/`admit`, no `native_decide`, no `bv_decide`, no `implemented_by`, no `unsafe`.
* The translation C++ -> Lean, done by hand.  Every definition of the model carries a comment with the file and lines it
  models; the head of each file states its simplifications.
* The assumptions about the environment listed in section 3.

## 2. How the model is organised

`lean/Verif/Base/*`   transition systems, runs, counting lemmas, word arithmetic.
`lean/Verif/Model/*`  transcription of the code, one file per component; computable `step` functions.
`lean/Verif/Spec/*`   specifications that do not refer to the helpers of the model (counters, flags, locks, traces).
`lean/Verif/Proof/*`  invariants and helper lemmas.
`lean/Verif/Props/*`  the property theorems, each stated in terms of calls, results and traces, with an `example`
                      showing that a concrete non-trivial run meets the hypotheses.
`lean/Verif/Audit.lean`  axioms per theorem.

Five shapes of statements are used.

1. *Interleaving systems.*  A state holds the shared words and a list with one program counter per thread (any
   length).  `step : State -> Label -> Option (State x List Event)` executes one atomic action of one thread; the label
   names the thread and resolves non-determinism (spurious failure of a compare-exchange, spurious wake-up, time-out, the
   value seen by a relaxed load, which sleeper is woken, failure of an OS call).  Safety properties are invariants
   proved by induction over executions of any length.  "No lost wake-up" properties say that in a reachable state in which
   every thread is idle or asleep, nobody is asleep while the resource is available; progress properties say that runs of
   the threads inside calls end, or that a call completes when its thread is run.
2. *Release/acquire views* for the happens-before properties: each thread carries the set of event identifiers it has
   observed, each atomic location the set released by its latest message (read-modify-writes continue release sequences).
3. *Machine arithmetic*: `UInt32` words; integers with explicit wrap-around and explicit undefined behaviour
   (`none`) for signed overflow, with the C++ usual arithmetic conversions.
4. *Sequential state machines* over arbitrary histories of operations (lock objects, guards, TSS, timers).
5. *Programs over the answers of the system* (Model/OsCall, C92 and C93): a function is run against an arbitrary list of answers
   and returns the calls it has made and how it ended (still waiting, returned, exception with class and code, failed
   assertion, `std::terminate`).

Where the code does not have a property, the negation is proved with a concrete witness (suffix `_refuted`), together
with the strongest restricted version found that holds (suffix `_partial`).  In the manifest such properties are "partial".

## 3. Assumptions about the environment (not proved)

* Futex: `FUTEX_WAIT` atomically compares and enqueues; `FUTEX_WAKE n` wakes min(n, sleepers) sleepers; waits may return
  spuriously, by EINTR or by time-out at any moment.
* pthread mutexes exclude; `pthread_cond_wait` releases and enqueues atomically and may wake spuriously; `signal` wakes
  one sleeper if there is one, `broadcast` wakes all.
* Windows events and semaphores behave as documented; `WaitFor*` does not wake spuriously; a wait for an event reports a timeout only when
  the event is not signalled in that moment (only Model/WinEvent).  `max_non_infinite_wait` is
  0xFFFFFFFE (Boost.WinAPI, not in this repository).
* POSIX, Windows, libdispatch and Mach semaphores count; their calls may fail or be interrupted at any time.
* The destructor of a pthread key is called at thread exit while the key's value is not null, but at most `rounds` times
  (a parameter of the model; POSIX guarantees at least 4), with the value set to null before each call.
* `pthread_once` and `InitOnceExecuteOnce` belong to the OS; code that rests on them is taken to be initialised once.
* Inside the emulations (Model/Monitor) the mutex and the condition variable may fail wherever the code handles it; a wait that
  fails does so before it sleeps, and reacquiring the mutex after a wait does not fail.
* Interleaving is sequentially consistent; where a theorem depends on what a relaxed load sees, the
  loaded value is arbitrary (in C89 and C90: arbitrary as far as coherence permits).  The happens-before properties use the views of section 2.
* C92-C95: the system answers with the error codes its documentation lists (`Documented`, Spec/Failures); what other threads do to shared
  memory between two calls is arbitrary (an answer of the environment).
* Users call `unlock` only while they own the mutex, destroy objects only when unused (documented preconditions).

## 4. Code modelled

| File in /repo (include/boost/sync unless given) | Model | Not modelled |
|---|---|---|
| detail/mutexes/spin_mutex.hpp | Model/SpinMutex | `pause`/yield back-off (no effect on the word) |
| detail/mutexes/shared_spin_mutex.hpp | Model/SharedSpinMutex | as above |
| detail/mutexes/basic_mutex_windows.hpp, mutex_windows.hpp, timed_mutex_windows.hpp | Model/WinMutex, Model/WinGetEvent, Model/WaitLoop, Model/UserClock | in Model/WinMutex: exceptions of `get_event` inside the noexcept `unlock` (the process terminates; see C93) |
| detail/mutexes/mutex_posix.hpp, timed_mutex_posix.hpp | Model/Interrupted, Model/Monitor, Model/Time, Model/UserClock | `pthread_mutex_t` itself |
| detail/events/auto_reset_event_futex.hpp | Model/AutoEventFutex, Model/AutoFutexOrder (which values are loaded) | |
| detail/events/auto_reset_event_semaphore.hpp | Model/AutoEventSem, Model/AutoSemOrder (memory order) | in these: a throwing `m_sem.post()` (inside the noexcept `post`; see C93) |
| detail/events/manual_reset_event_futex.hpp | Model/ManualEventFutex, Model/ManualFutexOrder (which values are loaded) | |
| detail/events/*_emulation.hpp, semaphore/semaphore_emulation.hpp | Model/Monitor, Model/MonitorOrder (what threads learn) | |
| detail/events/basic_event_windows.hpp, *_windows.hpp | Model/WinEvent, Model/WaitLoop, Model/UserClock, Model/Time | |
| detail/semaphore/semaphore_posix.hpp, _windows, _dispatch, _mach, basic_semaphore_mach.hpp | Model/OsSemaphore, Model/Interrupted, Model/Time, Model/UserClock, Model/WaitLoop, Model/Lifecycle | |
| detail/condition_variables/basic_condition_variable_windows.hpp, condition_variable_windows.hpp, condition_variable_any_windows.hpp | Model/WinCondVar, Model/WinCvOrder, Model/WinCondVarDtor, Model/PredLoops, Model/WinCvFail (failing locks) | `m_prev` links (never read) |
| detail/condition_variables/condition_variable_any_generic.hpp, condition_variable_posix.hpp | Model/CvAny, Model/CondVarPosix, Model/PredLoops | |
| detail/time_units.hpp, support/*.hpp, detail/futex.hpp (conversion) | Model/Time, Model/TimePoint | calendar functions of the OS |
| detail/time_traits.hpp, declarations of all timed functions | Model/Instantiate | parts of bodies that do not depend on the type of the timeout compile |
| detail/pthread.hpp (EINTR loops) | Model/Interrupted | |
| locks/unique_lock.hpp, upgrade_lock.hpp, shared_lock.hpp | Model/Locks, Model/LocksThrow (destructors that cannot unlock), Model/LockMembers | |
| locks/lock_guard.hpp, shared_lock_guard.hpp, unlock_guard.hpp | Model/Guards, Model/GuardsThrow (mutexes that cannot be unlocked, rules of C++11) | the same before C++11 |
| src/tss_manager.hpp, src/tss_pthread.cpp, src/tss_windows.cpp, src/tss_windows_dll.cpp, src/tss_windows_pe.cpp, src/tss_windows_hooks.hpp, thread_specific/*, condition_variables/notify_all_at_thread_exit.hpp | Model/Tss, Model/TssRace, Model/TssOnce, Model/TssAlloc, Model/TssProcess, Model/TssHooks | failing allocations together with callbacks that call the library (Model/TssAlloc has the former, Model/Tss the latter) |
| detail/waitable_timer.hpp | Model/TimerInit, Model/TimerContext, Model/SemName | unloading of modules |
| error handling of all files above that call the system, detail/auto_handle.hpp, detail/pthread_mutex_locks.hpp, exceptions/*.hpp (the classes) | Model/OsCall, Model/Failures | TSS; messages of the exceptions |
| the conditional parts of detail/config.hpp, atomic.hpp, semaphore_config.hpp, pthread.hpp, futex.hpp, header.hpp, footer.hpp, link_config.hpp, of the headers in mutexes, condition_variables, events, semaphore.hpp and of their implementations; src/*.cpp; build/Jamfile.v2 (the sources) | Model/Config | declarations other than constructors, data members, `native_handle`, the mark that a mutex works with `condition_variable`; headers of other libraries (they are macros from outside); the preprocessor evaluates conditions over integers without overflow |
| exceptions/*.hpp, detail/system_error.hpp, detail/throw_exception.hpp | Model/ErrCode | the messages and source positions in exceptions |

Not modelled at all: forwarding headers, weak_linkage.hpp, compile-time traits.

## 5. Per property

| Property | Model | Statement and proof |
|---|---|---|
| C01-C03 | SpinMutex | interleaving + views; word locked iff exactly one owner; the location's view covers all finished sections when free; progress of `lock` and exactness of `try_lock` |
| C04-C08 | SharedSpinMutex | word = number of readers or 2^31; C06 computed on the 32-bit word; C08 refuted by a run, proved without interference |
| C09-C13, C68 | WinMutex, WinGetEvent | bit 31 iff owner, low bits = registered threads, bit 30 = signalled + setters + clearers; completion of calls; C13 refuted by two runs, proved for the uncontended path |
| C14-C16 | Monitor | refinement of a lock; interleaving of mutex + condition variable |
| C17-C23 | AutoEventFutex | waiters field = registered threads; posts <= waiters + 1; asleep > 0 -> posts <= awake + pending signals; C21 refuted with 1024 sleepers; C22, C23 refuted by runs |
| C24-C26 | AutoEventSem | counter = registered - permits - pending; C26 refuted by a run, proved with the number of failed or thrown waits added |
| C27, C28, C33 | Monitor | refinement of an event flag and of a counter; wake-ups refuted with a slow user's clock, proved otherwise |
| C29-C31 | ManualEventFutex | set and asleep > 0 -> broadcast pending; views |
| C32, C70 | OsSemaphore, Monitor | conservation of permits over histories with an OS that may fail; emulation refines a counter until it wraps |
| C34-C38 | WinCondVar | ring of waiter states; units of notification are conserved; what the results of waits mean |
| C39, C40 | CvAny | user's lock, internal mutex, sleepers; C39 refuted with a user's clock; results of waits and notifications |
| C41, C42 | PredLoops | loops with arbitrary predicate and wait; C42 refuted for the generic condition_variable_any |
| C43-C47, C52, C71 | Time | integer arithmetic with C++ conversions; refuted for negative sums and for 32-bit truncation, exact otherwise |
| C48, C49 | UserClock | loops with arbitrary clock and arbitrary primitive |
| C50, C51 | WaitLoop | loops with arbitrary OS; C51 refuted for the loops that restart |
| C53-C56 | Locks | arbitrary histories over many lock objects and mutexes; accounting, and the effect of each operation |
| C57 | Guards | structured programs of nested guards with exceptions |
| C58-C65 | Tss | any number of threads and objects, callbacks and cleanup functions do anything; C58, C60-C65 refuted by runs, with restricted versions |
| C66 | TimerInit, TssOnce | refinement of a specification of one-time initialisation; progress |
| C67 | SemName | the name is the prefix and the eight hexadecimal digits; injectivity |
| C69 | Interrupted | retry loops over arbitrary answers of the OS |
| C72 | TssRace | single memory accesses of the TSS functions; which pairs race |
| C73, C75 | TimerInit | several modules share a named semaphore; every OS call may fail |
| C74 | TimerContext | histories of one thread; every OS call may fail |
| C76 | Monitor | lost wake-ups by runs for all four components; none without interruptions |
| C77 | Monitor | the history without the calls that threw is one of the atomic object (induction over the history with the set of calls that will throw) |
| C79, C80 | CondVarPosix | mutex, arbitrary data and predicates, sleepers; C80 refuted by runs for a user's clock and for repeated interrupted waits |
| C81 | WinMutex | refuted by a run of three threads; single step with the invariant of C01 |
| C91 | Monitor, AutoEventSem, AutoEventFutex, ManualEventFutex, SpinMutex, SharedSpinMutex | emulations: at most one thread is between the instant its call takes effect and its return (it owns `m_mutex`), so counting on the atomic object shows that the successful waits never outnumber the signals that have returned; over a semaphore: the count of C24; futexes: refuted by runs of two threads, invariants of C17-C23 and C29-C30 for the rest; spin mutexes: single steps |
| C92, C93 | OsCall, Failures | functions that call the system are programs over a stream of answers (`M`): the calls they make, how they end (return, exception with class and code, assertion, `std::terminate`), the last error code. A specification of each call (`mustThrow`, `misused`, `Documented`), independent of the functions, says what a failed call must lead to. Rules for sequence, loops, `noexcept`, destructors of local objects and `catch (...)` (`Proof.FailureRules`) reduce each function to its single calls |
| C94, C95 | OsCall, Failures | the programs of C92; a second set of rules (`Proof.TraceRules`) folds a ghost state over the calls of a function: the number of successful acquisitions and the reason to say no (C94), the owner of the internal mutex and the state of the user's lock (C95). The specifications (`Spec.Outcome`) are folds over the log of calls and do not mention the functions |
| C96 | AutoEventFutex, ManualEventFutex, WinMutex, SpinMutex, SharedSpinMutex, AutoEventSem, Monitor, CvAny, CondVarPosix, WinCondVar, TimerInit, TssOnce | potentials: every step that is not charged lowers a number, every charged one raises it by less than the constant (`Proof.Effort`); which steps are charged is said in `Spec.Charges`. States of rest by cases on the program counter and C10, C18, C29 |
| C97 | WinCondVar | the counting invariant of C35 with a semaphore that has a maximum: a failing `ReleaseSemaphore` means that more units are left than there are threads; the executions that fill the semaphore by induction |
| C98 | Base/Preproc, Config | a preprocessor (macros, conditions, include guards, declarations, stack of diagnostics); a static check that each header includes what it uses is proved to imply that its part of any translation unit is the one it has alone; then case analysis over the macros it asks for |
| C99 | Config | members of the classes as functions of the macros; refuted by two concrete units each |
| C100 | Config | each header preserves the stack if header.hpp and footer.hpp agree; refuted with a compiler by Intel |
| C101 | Config | as C98; members by their types |
| C102 | Config | the four sources as translation units; refuted with `BOOST_ALL_DYN_LINK` alone |
| C103 | Config | as C98; refuted with the macros as the standard spells them |
| C104 | ManualFutexOrder | the steps of ManualEventFutex, with the modification order of `m_state`, what is published with each value, and the place in it each thread has observed, as in C90; the invariants of C29-C31 hold whatever is loaded. `covers` in C89, C90, C104, C105, C106 (Props.Newest): by forward simulation, the models of memory order have every execution of the plain models in which loads read the newest value |
| C105 | MonitorOrder, ManualFutexOrder | the steps of Monitor, with what each thread knows and what is passed on with the internal mutex; invariant: the owner of the mutex knows all that was done before an update. Futex: refuted by a run in which a thread resets, learns nothing, and sleeps |
| C106 | WinCvOrder | the steps of WinCondVar, with the modification order of `m_total_waiter_count`, the place in it each thread has observed, and the places known to who locks the internal mutex or the user's lock. Happens-before is defined on the events alone; invariants: a thread knows of every write that happens before, the owner of the internal mutex knows the newest value, every value was the value at some instant |
| C107 | ErrCode | the constructors of the exceptions, overload resolution by ranks of implicit conversions (`errc` is an unscoped enumeration with Boost.System, a scoped one in `std`), the table of all throwing places; case analysis over classes and kinds of codes, for all values. The values of `errc` and the mapping of `system_category` are parameters; the refutation on Windows uses the documented values of four constants, which are not in /repo |
| C108 | TimePoint | the conversions of time points composed of those of durations (Model/Time), `SetWaitableTimer` reading the 64 bits as signed; arithmetic over all values, with the theorems of C43 and C47. Not: the calendar arithmetic of Boost.DateTime |
| C109 | Instantiate | all declarations with a timeout as data (what they accept, which calls the body makes), overload resolution, and an inductive predicate "compiles"; the exact set of types that compile by following the calls of each class. Not: parts of bodies that do not depend on the timeout |
| C110 | LockMembers | the members of the three lock classes as lists of what they name, access control, an inductive predicate "usable"; names of functions of mutexes built by rule in the specification |
| C111 | SpinMutex, SharedSpinMutex, WinMutex, AutoEventFutex, ManualEventFutex, AutoEventSem, WinEvent | `Spec.Alone.Within`: there is always a next step of the thread, and all of them lead to the goal within k steps; by an invariant and a number that decreases (`within_of_measure`), or by cases. Not: Monitor and the condition variables, which take locks (C112) |
| C112 | Monitor, CvAny, CondVarPosix, WinCondVar | `Spec.Alone.Within` as in C111, with no restriction on the environment. Monitor, CvAny, CondVarPosix: by cases on the places of the caller; WinCondVar: by induction on the length of the part of the ring that the loops have not looked at, with the bound `nodes + c`. `held`: from ownership to release; `call`: from the call; `inside`: from any place inside a function |
| C113 | WinCvFail (WinCondVar with failing locks) | invariant: the state with a stuck thread added for each wait that was left satisfies the invariants of C34 (`plus`, `step_plus`); the last part is refuted by executions |
| C114 | SpinMutex, SharedSpinMutex, WinMutex, AutoEventFutex, ManualEventFutex, AutoEventSem, Monitor | executions without end (Spec/Endless): refuted by rounds that can be repeated for ever (`starves_of_rounds`); what holds: a rank that a thread the scheduler owes a step lowers (`Scheduled.lead`); for the mutex of Windows the potential of C96 and the invariant of C10, for `auto_reset_event` over futexes numbers that stop to change and the invariant of C18; for the emulation of `manual_reset_event` the mutex inside must not pass over a thread for ever (`Served`, strong fairness), weak fairness is shown not to be enough; for the other emulations the numbers of sleepers and of units left stop to change, and the invariant of C15, C27 and C33 (a sleeper and a unit imply a thread on its way) contradicts that; for `auto_reset_event` over a semaphore: if `post` returns again and again there are permits again and again, because of the equation of C24, and a semaphore that passes over nobody gives one to each waiter |
| C115 | CvAny, WinCondVar, CondVarPosix | executions without end (Spec/Endless), strong fairness (`Served`): the owner of the internal mutex always has a next step that gives it up, so the mutex is free again and again; then each stage of a notification and of a woken wait is left. Refuted for time points of a user's clock by rounds that can be repeated for ever. Windows: the loops of the owner of the internal mutex end (C37, C35); after `notify_all` every node is full (as many notifications as waiters) and stays so, threads that took a unit of its semaphore leave it, so the semaphore has units again and again (`Counts`) |
| C116 | TimerInit, TssOnce, WinGetEvent | executions without end, weak fairness (`Scheduled`): each stage of an initialisation is left, so the flag changes; a thread at the loop is there when the flag is set, and finds it. Refuted for the waitable timer by a round of failures that can be repeated for ever |
| C117 | CvAny, CondVarPosix, WinCv | executions without end, strong fairness (`Served`) and `Timely` (a call that sleeps with a time limit again and again times out): a wait that does not end stays within the timed wait (invariant), so comes back to its sleep again and again; there it times out, and from a time-out every path leads to the return |
| C118 | Monitor, AutoEventSem, ManualEventFutex | as C117: a timed call that does not end stays in the timed call (invariant), each step while awake brings it nearer to its sleep or its return (rank), so it sleeps again and again and learns of its time limit; after that no path leads back to the sleep |
| C119 | AutoEventFutex, WinMutex | refuted by rounds that can be repeated for ever (`starves_of_rounds`); what holds as C118, with a rank that counts a stale expected value as one step more, under the hypothesis that others leave the word alone from some time on |
| C120 | CvAny, CondVarPosix | as C117, with `Reaches` for the clock (one of infinitely many readings is not before the deadline): a wait that does not end reads the clock again and again, since it sleeps otherwise and a time-out leads to the clock; the reading that is late leads to the return. `C120_stopped_clock`: rounds of reading and sleeping, repeated for ever |
| C121 | LocksThrow | the steps that do not end the process are steps of Locks with a throwing unlock in a destructor read as a release (simulation), so the accounting of C53 and C55 carries over, corrected by the number of such exceptions; none occurs under the rules of C++11 |
| C122 | GuardsThrow | induction over programs: an execution with failing unlocking functions is the execution of Guards, or a prefix of it that ends with `std::terminate`; C57 carries over |
| C82 | WinCondVar | refuted by a run; the invariants of the counters and of the internal mutex |
| C83 | WinCondVar, WinCondVarDtor | the ring invariant (every waiter state leads to every other) makes the walk a permutation of all waiter states |
| C84 | WinEvent | the effects replayed on a flag; per thread the effects of the current call |
| C85 | Lifecycle | classes as tables of members and OS objects, the C++ rules for constructors; refuted for the emulated timed_mutex |
| C86 | TssAlloc | calls as atomic steps that are told which allocation, lock or OS call fails; refuted by runs; one-call case analysis, and an invariant counting function objects and mutexes held by contexts |
| C87 | TssProcess | hooks and calls by any threads, `destroy_thread_context` in single steps, contexts that may have been deleted; refuted by runs; an invariant and an account of everything handed over, for executions in which only stated calls are made once the process is exiting; a measure for the end |
| C88 | TssHooks | tables of the hooks called by each build for each notification of the loader, over any history of threads; which notifications there are, and in which order, is assumed; combined with the executions of C87: what is held was handed over by the thread that owns the context |
| C89 | AutoSemOrder | the steps of AutoEventSem decorated with views: the modification order of `m_state`, the place in it each thread has observed (coherence), what `m_state` and `m_sem` publish; loads read any value from that place on; every value was the current one at some instant, which lies after all changes known |
| C90 | AutoFutexOrder | the steps of AutoEventFutex, with the modification order of `m_state` and the place in it each thread has observed, as in C89; the invariants of C17-C23 hold whatever is loaded |
| C78 | AutoEventSem | refuted by a run; the invariants of C24-C26 with the number of thrown waits added |

## 6. Findings: where the code differs from its documentation

Proved in Lean (theorem names in the manifest):

* C08: `shared_spin_mutex::try_lock_shared` fails though no writer holds the mutex (lost or spuriously failing CAS).
* C13: the contended path of the Windows mutex acquires with a relaxed compare-exchange: no happens-before in the C++ model.
* C21: `auto_reset_event` (futex) loses a wake-up with 1024 blocked threads (the ten-bit counter of posts wraps).
* C22: a `post` on an event already signalled does not publish (fence without a store).
* C23: `auto_reset_event` (futex) is not linearizable as a flag: it remembers a post per waiter.
* C26: the semaphore-based event remembers more than one post after failing waits.
* C27, C28, C33, C39, C80: timed waits with a user's clock that is behind the system clock can swallow a notification.
* C32: the emulated semaphore's counter wraps at 2^32; `post` does not check.
* C42: the generic `condition_variable_any` starts a relative timeout anew after each spurious wake-up with a predicate.
* C43-C45: a negative duration larger than the nanoseconds of the time point gives a time point 2^64 ns late; a timed wait
  on POSIX with such a timeout blocks for at least 292 years instead of returning.
* C47: date_time durations whose resolution does not divide the unit (or vice versa) are converted wrongly.
* C49: the Mach semaphore does not try when the deadline of a user's clock has passed.  C71: it truncates seconds to 32 bits.
* C51: futex events, emulations, and the Windows mutex and condition variable restart the timeout after each wake-up.
* C57: `unlock_guard` for a mutex: an exception from locking again leaves the mutex unlocked (or terminates).
* C58: exit callbacks on POSIX read null.  C60, C62, C63: work beyond the fixed number of destructor rounds is lost, and
  callbacks registered by callbacks run late.  C61: destroying a `thread_specific_ptr` while a thread exits leaks its value
  or passes it to another object's cleanup.  C64: on Windows callbacks registered by cleanup functions are lost.  C65: with
  compiler-supported thread-local variables on POSIX nothing is done at thread exit.
* C69: `try_wait` of the POSIX semaphore reports an interruption as failure (`C69_try_wait_interrupted`).
* C72: `delete_key` races with `get`/`set` of other threads; thread exit reads the table of cleanup functions unlocked.
* C76, C80: repeating an interrupted `pthread_cond_wait` without a look at the data loses wake-ups (only where
  `BOOST_SYNC_HAS_PTHREAD_EINTR_BUG` is defined).
* C91: `post` and `set` of the events on futexes make their system call (auto_reset_event_futex.hpp 81, manual_reset_event_futex.hpp 60) after the waiter may have
  returned and destroyed the event; the address may then belong to another object, whose waiters get a spurious wake-up.
* C92: semaphore_windows.hpp 174 throws `lock_error` from `timed_wait` (all others throw `wait_error`); semaphore_windows.hpp 70 throws `overflow_error` for every failure of
  `ReleaseSemaphore`; semaphore_posix.hpp 92-96, 113-116, 160-164 return normally after an unexpected error when `NDEBUG` is defined (`wait` as if it had decremented the
  semaphore); timed_mutex_posix.hpp 148-156 with `NDEBUG` ignores a failed `pthread_mutex_lock` or `pthread_cond_wait`; basic_mutex_windows.hpp 90 and
  basic_condition_variable_windows.hpp 273 ignore the result of `SetEvent` and `ReleaseSemaphore`; basic_semaphore_mach.hpp 168-170 throws when a timed wait is interrupted.
* C93: basic_mutex_windows.hpp 82-93 is `noexcept` but calls `get_event`, which throws `resource_error`; basic_condition_variable_windows.hpp 170-193 are `noexcept` but lock and unlock
  `m_internal_mutex`; auto_reset_event_semaphore.hpp 43-64 is `noexcept` but calls `m_sem.post()`, which throws `overflow_error`; `relocker::unlock`
  (basic_condition_variable_windows.hpp 124-128) is `noexcept` but calls `unlock` of the user's object; the destructors of both `relocker`s lock, and may throw, while another exception propagates.
* C94: semaphore_posix.hpp 109-111 returns `false` when `sem_trywait` has been interrupted (`EINTR`), though the semaphore may be available; semaphore_posix.hpp 92-95 with `NDEBUG` returns from
  `wait` without having taken anything when `sem_wait` fails with `EDEADLK`.
* C95: pthread_mutex_locks.hpp 41-49 only asserts that `pthread_mutex_lock` has succeeded, so timed_mutex_posix.hpp 148-172 with `NDEBUG` goes on to read and write `m_is_locked` and to unlock a mutex it does
  not own; `try_lock` then returns `true`.
* C99: the ABI namespace does not tell everything that the layout depends on: units compiled for Mac OS X 10.5 and 10.6 have
  semaphores and auto reset events of the same name and different members, units in C++98 and C++11 have `spin_mutex` over
  `boost::atomic_flag` and `std::atomic_flag`.
* C100: header.hpp excludes compilers by Intel before it pushes the state of the diagnostics, footer.hpp pops it with them as well.
* C102: tss_windows_dll.cpp asks for `BOOST_SYNC_DYN_LINK` but does not include link_config.hpp, which defines it from
  `BOOST_ALL_DYN_LINK`. Such a DLL exports its symbols and has no `DllMain`; it does not link, since
  tss_windows.cpp refers to `tss_cleanup_implemented`, which is there for that purpose.
* C103: spin_mutex.hpp asks for `ATOMIC_BOOL_LOCKFREE`; the macro of the standard is `ATOMIC_BOOL_LOCK_FREE`. The test-and-test-and-set
  class is dead code.
* C105: `manual_reset_event::reset` on futexes is `opaque_and(…, memory_order_relaxed)` (line 65). A reset that comes after a set
  clears the signal without acquiring what was done before it. A thread that calls `reset()`, then tests a condition, then calls
  `wait()` may find the condition as it was before, and sleep although the condition was made true before the `set()`. The
  emulation has no such problem. An acquire operation would suffice.
* C107: doc/sync.qbk line 90 offers `BOOST_SYNC_USE_STD_SYSTEM_ERROR`, but with it `lock_error(errc, text)` (unique_lock.hpp 189 and
  35 other places in the lock objects) and `wait_error(errc, text)` (basic_semaphore_mach.hpp 79, 82, 89, 163, 166, 170) do not compile: `std::errc` is a scoped
  enumeration and does not convert to `int`. `resource_error` has constructors for it (43, 53), the other classes have none.
  On Windows `runtime_exception` (38-46) puts constants of `errc` into `system_category`, where 1 (`EPERM`) is `ERROR_INVALID_FUNCTION`;
  `code() == errc::operation_not_permitted` is false.
* C108: `system_time_point(system_duration)` divides by an unsigned constant (time_units.hpp 175-176), so a chrono or date_time time point before 1970
  becomes a time after 2262; on Windows a time point before 1601 is negative as a `LARGE_INTEGER` and `SetWaitableTimer` takes it for a duration.
  Waiting until `system_clock::time_point::min()` blocks for centuries on both. On Windows time points are rounded down to milliseconds although
  the timer has a resolution of 100 ns: the timeout comes up to a millisecond early. (`BOOST_SYNC_DETAIL_STD_CHRONO_TIME_T_MISMATCH`, std_chrono.hpp 75, is defined nowhere.)
* C109: every loop for time points of a user's clock contains `time_point now = clock::now()` with the user's type of time point, so a time point coarser than the clock
  (`time_point< steady_clock, milliseconds >`) does not compile with any class. In `manual_reset_event` on futexes the loop moreover calls `timed_wait`
  instead of `priv_timed_wait` with a `system_duration` (line 196), for which no time traits exist: no time point of such a clock compiles. (Elsewhere this loop is modelled as meant.)
* C110: the converting constructors and assignments of the locks (unique from upgrade, upgrade from unique, shared from both) read `that.m_mutex`, a private member of another
  class without being friends. Nor can `upgrade_lock` be used with any mutex of the library.
* C113: on Windows, when `m_internal_mutex.lock()` throws after the wait of the system (lines 336, 346, 369, 388, 400, 425, 439, 452), the exception leaves the thread counted as a waiter for ever: the assertion of the destructor fails, and a later `notify_one` can be spent on it while a thread waits.
* C114: none of the mutexes, events and semaphores is fair: a thread that is woken competes with threads that come later, and a reader or a writer that spins can lose every race.  `shared_spin_mutex::lock` is kept out by readers whose sections overlap; `lock_shared` can be kept out by other readers alone, whose compare-exchanges make its own fail; `manual_reset_event::wait` over futexes does not return if the event is reset before the woken thread looks.
* C115: `condition_variable_any::wait_until` with a time point of a clock of the user sleeps again when the system's clock says the time has come and the user's does not; a `notify_all` in between is lost on it, and this can go on for ever (the same gap as in C39, here with a fair scheduler).  The same holds for `condition_variable` over pthreads, where it also happens to waits of every kind if interrupted waits are repeated (C80).
* C116: `get_waitable_timer` has no bound on waiting for an initialisation by another thread: while attempts fail again and again (no TLS slot left), a thread can find one in progress whenever it looks.
* C119: `on_wait_timed_out` of the futex-based `auto_reset_event` and `mark_waiting_and_try_lock` of the Windows timed mutex retry a compare-exchange without looking at the time: other threads that change the word again and again can keep a call going after its time limit.
* C81: `basic_mutex::unlock` (Windows) writes to the mutex after having released it when threads were waiting
  (basic_mutex_windows.hpp 81-93); the last user cannot destroy the mutex safely. POSIX requires a mutex to allow it.
* C82: `~basic_condition_variable` (Windows) asserts that no thread is waiting to be notified (line 152), but notified threads
  still use the internal mutex, the semaphore and the counters of the condition variable; the standard allows destruction once all
  waiting threads have been notified.
* C85: the constructor of the emulated `timed_mutex` (timed_mutex_posix.hpp 98-110) leaks the mutex if `pthread_cond_init` fails.
* C86: `create_thread_context` (tss_manager.hpp 140-148) leaks the context if locking `m_mutex` throws.
* C86: the results of `pthread_setspecific` (tss_pthread.cpp 92) and `TlsSetValue` (tss_windows.cpp 127) are ignored.  If the call fails, `reset` and
  `at_thread_exit` return normally, but the value is not found, the callback is never called and both are leaked.
* C86: the destructor of `thread_specific_ptr` aborts the process if memory is exhausted (tss_manager.hpp 240, 245; tss_pthread.cpp 139-142).
* C87: `on_process_exit` sets `tss_mgr` to null before it deletes the manager (tss_windows.cpp 143-144), so a cleanup function called by the destructor that creates
  or destroys a `thread_specific_ptr`, or stores a value while the context being destroyed is not its thread's own, dereferences null.  The main thread can have
  a context then, created by destructors of global objects, since `on_thread_exit` is called before these (tss_windows_pe.cpp 245-269).
* C87: the destructor of the manager destroys the contexts of threads that have not exited.  Their mutexes (`notify_all_at_thread_exit`) are unlocked by the wrong
  thread, and with `BOOST_SYNC_DETAIL_TLS` their pointers to the contexts stay, so that a thread that goes on reads freed memory.
* C87, C64: a callback registered with `at_thread_exit` by a cleanup function of a value is deleted without being called (tss_manager.hpp 153-193).
* C88: built statically with a recent MinGW the library is only told of threads that end (tss_windows_pe.cpp 41-60): `on_process_exit`, which "must not be omitted", is never called, and the callbacks
  and values of the main thread are never dealt with.  With an old MinGW `on_tls_callback` is defined but in no list (73-74): no thread but the one that ends the process calls `on_thread_exit`.
* C88: the result of `atexit` is not checked (tss_windows_pe.cpp 256).
* C89: a `post` that finds the semaphore-based auto_reset_event set executes only a release fence (auto_reset_event_semaphore.hpp 63), which no store follows: nothing is published, so the wait that takes
  the earlier permit need not see what was done before this post, and the value found by the relaxed load (45) may be out of date, so that a thread already blocked again is not woken.
* C90: the same for the futex-based auto_reset_event: `post` (auto_reset_event_futex.hpp 60-66) gives up on the value found by a relaxed load, and a thread that is already blocked again is not woken.
* C78: a wait of the semaphore-based event that throws leaves `m_state` incremented; one more post is remembered for ever.
* C75: a semaphore handle is leaked when the initialisation of the timer is retried after two failures.

Seen while reading, not expressed as theorems:

* `operator=` of the locks swaps, unlike `std::unique_lock`.
* `waitable_timer.hpp` line 305 reads the flag without an atomic operation: formally a data race.
* The factor `time_left / conversion_ratio` in the dispatch and Mach semaphores has the wrong direction, without effect,
  since the ratio is 1.
* Errors of `sem_post` other than overflow are ignored (`EINVAL` in release builds only).
* `unlock` of the Windows mutex is noexcept but calls `get_event`, which may throw: the process then terminates.

## 7. Testing the theorems with wrong programs

`seeded/LOG.jsonl` records edits of the model as realistic bugs would make them, made in a scratch copy, with the
theorems that failed and those added or tightened because nothing had failed.
