#!/usr/bin/env python3
"""Writes /verif/properties.jsonl.  One tuple per property."""
import json, os
I = "include/boost/sync/"
P = []
def p(id, title, statement, quantifier, why, anchors):
    P.append(dict(id=id, title=title, statement=statement, quantifier=quantifier,
                  why_tests_cant=why, anchors=anchors))

SCHED = "a test observes a handful of schedules; the claim ranges over every interleaving of an unbounded number of calls"

# ---------------- spin_mutex
p("C01", "spin_mutex: mutual exclusion",
  "At no point of any execution do two threads both sit between a successful lock()/try_lock() and the matching unlock() of the same spin_mutex.",
  "every number of threads, every sequence of lock/try_lock/unlock calls in which unlock is only called by the owner, every interleaving, every value the relaxed spinning loads may return",
  SCHED, [I+"detail/mutexes/spin_mutex.hpp: spin_mutex::lock, try_lock, unlock (both the atomic<bool> and the atomic_flag variant)"])
p("C02", "spin_mutex: critical sections are ordered by happens-before",
  "Everything a thread did before it released the mutex (its own earlier critical sections and all those it had itself observed) is visible to every thread that acquires the mutex later.",
  "every execution of any number of threads under the C++11 release/acquire rules for the mutex word",
  "missing acquire/release is invisible on x86 and shows only on weakly ordered hardware with unlucky timing",
  [I+"detail/mutexes/spin_mutex.hpp: memory orders of exchange/test_and_set, store/clear"])
p("C03", "spin_mutex: try_lock is exact and failure leaves no trace",
  "try_lock() returns true exactly when the mutex is free at the instant of its atomic operation; when it returns false the mutex remains held by the same owner, and when every owner has unlocked, the next lock attempt succeeds.",
  "every reachable state of every execution of any number of threads", SCHED,
  [I+"detail/mutexes/spin_mutex.hpp: spin_mutex::try_lock"])
# ---------------- shared_spin_mutex
p("C04", "shared_spin_mutex: readers/writer exclusion",
  "While a thread holds exclusive ownership no other thread holds exclusive or shared ownership.",
  "every number of threads, every sequence of lock/try_lock/unlock/lock_shared/try_lock_shared/unlock_shared calls respecting ownership, every interleaving, every value the relaxed loads may return",
  SCHED, [I+"detail/mutexes/shared_spin_mutex.hpp: shared_spin_mutex (all members)"])
p("C05", "shared_spin_mutex: the word is free exactly when nobody owns the mutex",
  "The number of shared owners is never miscounted: once all owners released, an exclusive attempt not disturbed by others succeeds, and while anybody owns the mutex an exclusive attempt fails.",
  "every reachable state of every execution of any number of threads", SCHED,
  [I+"detail/mutexes/shared_spin_mutex.hpp: lock, try_lock, unlock, unlock_shared"])
p("C06", "shared_spin_mutex: reader-count capacity",
  "No number of simultaneous readers corrupts the mutex: at most 2^31 threads own it in shared mode at once, and reaching that limit only makes further shared attempts wait or fail.",
  "every number of threads, every interleaving; the limit is sharp (over all 2^32 words)",
  "needs 2^31 threads",
  [I+"detail/mutexes/shared_spin_mutex.hpp: lock_shared, try_lock_shared (next = current + 1u)"])
p("C07", "shared_spin_mutex: happens-before between critical sections",
  "An exclusive owner sees everything done in every earlier shared or exclusive critical section; a shared owner sees everything done in every earlier exclusive critical section.",
  "every execution of any number of threads under the C++11 release/acquire rules, including release sequences through the readers' read-modify-writes",
  "missing ordering is invisible on x86", [I+"detail/mutexes/shared_spin_mutex.hpp: memory orders"])
p("C08", "shared_spin_mutex: try_lock_shared succeeds whenever there is no exclusive owner",
  "If the mutex is not exclusively locked, try_lock_shared() acquires shared ownership and returns true (as its documentation says).",
  "every reachable state and every interleaving of the call with other threads' calls",
  "requires another reader to arrive between the load and the compare-exchange",
  [I+"detail/mutexes/shared_spin_mutex.hpp: try_lock_shared", I+"mutexes/shared_spin_mutex.hpp"])
# ---------------- Windows mutex
p("C09", "Windows mutex/timed_mutex: mutual exclusion",
  "Two threads never own the mutex at once, whether acquired by lock, try_lock, a timed lock or after sleeping on the event.",
  "every number of threads below 2^30, every interleaving of lock/try_lock/timed_lock/unlock including timeouts and failing waits",
  SCHED, [I+"detail/mutexes/basic_mutex_windows.hpp: basic_mutex", I+"detail/mutexes/timed_mutex_windows.hpp: timed_mutex"])
p("C10", "Windows mutex/timed_mutex: no lost wake-up",
  "There is no reachable state in which the mutex is free, threads are blocked inside lock(), and no thread can take a step: whenever the mutex is unlocked and somebody sleeps, the event is signalled or some thread that is not asleep is about to signal or consume it.",
  "every reachable state of every execution with fewer than 2^30 threads", SCHED,
  [I+"detail/mutexes/basic_mutex_windows.hpp: unlock, mark_waiting_and_try_lock, clear_waiting_and_try_lock, priv_lock"])
p("C11", "Windows mutex: event flag and event object agree",
  "The internal auto-reset event is never signalled twice without an intervening consumption, and at most one thread at a time is between being released by the event and updating the word.",
  "every reachable state of every execution with fewer than 2^30 threads", SCHED,
  [I+"detail/mutexes/basic_mutex_windows.hpp: unlock, clear_waiting_and_try_lock"])
p("C12", "Windows mutex: failed or throwing lock attempts leave no trace",
  "A timed lock that returns false, or a lock that throws because a wait or event creation failed, leaves the count of blocked threads as if the call had not happened and does not own the mutex.",
  "every reachable state and every failure point of every lock call", "fault injection inside the OS at every point of every schedule",
  [I+"detail/mutexes/basic_mutex_windows.hpp: priv_lock", I+"detail/mutexes/timed_mutex_windows.hpp: priv_timed_lock"])
p("C13", "Windows mutex: critical sections are ordered by happens-before",
  "Everything done in a critical section is visible to the next owner.",
  "every execution of any number of threads under the C++11 memory model",
  "the contended path acquires with a relaxed compare-exchange; x86 hides it",
  [I+"detail/mutexes/basic_mutex_windows.hpp: mark_waiting_and_try_lock, clear_waiting_and_try_lock"])
# ---------------- timed_mutex posix emulation
p("C14", "POSIX timed_mutex emulation: mutual exclusion",
  "With the condition-variable based emulation two threads never own the timed_mutex at once.",
  "every number of threads, every interleaving, spurious wake-ups and timeouts at any point", SCHED,
  [I+"detail/mutexes/timed_mutex_posix.hpp: timed_mutex (emulation branch)"])
p("C15", "POSIX timed_mutex emulation: no lost wake-up",
  "There is no reachable state in which the timed_mutex is free, threads are blocked in it and no thread can take a step.",
  "every reachable state of every execution of any number of threads", SCHED,
  [I+"detail/mutexes/timed_mutex_posix.hpp: lock, unlock, priv_timed_lock"])
p("C16", "POSIX timed_mutex emulation: a timed lock fails only while the mutex is owned",
  "timed_lock/try_lock_for/try_lock_until returns false only if, after its deadline passed, it observed the mutex to be owned by another thread.",
  "every reachable state of every execution of any number of threads", SCHED,
  [I+"detail/mutexes/timed_mutex_posix.hpp: priv_timed_lock"])
# ---------------- auto_reset_event futex
p("C17", "auto_reset_event (futex): every post releases at most one waiter",
  "In every execution the number of completed successful waits (wait, try_wait, timed waits) never exceeds the number of completed or running posts.",
  "every number of threads up to 1023, every interleaving of post/wait/try_wait/timed wait including spurious futex wake-ups, signals and timeouts", SCHED,
  [I+"detail/events/auto_reset_event_futex.hpp: auto_reset_event"])
p("C18", "auto_reset_event (futex): no lost wake-up",
  "There is no reachable state in which the event is signalled, a thread is asleep waiting for it, and no thread can take a step. In particular if post() has returned and its signal was not consumed, some waiter is awake.",
  "every reachable state of every execution of up to 1023 threads", SCHED,
  [I+"detail/events/auto_reset_event_futex.hpp: post, wait, priv_timed_wait, on_wait_timed_out"])
p("C19", "auto_reset_event (futex): an event nobody waits for remembers at most one post",
  "Whenever no thread is inside a blocking wait, at most one successful wait is possible before the next post, however many posts were made.",
  "every reachable state of every execution of up to 1023 threads", SCHED,
  [I+"detail/events/auto_reset_event_futex.hpp: post"])
p("C20", "auto_reset_event (futex): a timed wait that fails consumes nothing",
  "A timed wait that returns false changes neither the signalled state nor the count of blocked threads; if a post is available when the timeout strikes, the wait returns true and consumes it.",
  "every reachable state of every execution of up to 1023 threads", SCHED,
  [I+"detail/events/auto_reset_event_futex.hpp: on_wait_timed_out, priv_timed_wait"])
p("C21", "auto_reset_event (futex): posts are never lost whatever the number of waiters",
  "If k threads are blocked and k posts are made, all k threads get released.",
  "every number of blocked threads",
  "requires more than a thousand threads blocked at once and as many posts before any of them runs",
  [I+"detail/events/auto_reset_event_futex.hpp: post (10-bit post counter)"])
p("C22", "auto_reset_event (futex): post publishes the poster's writes",
  "Everything a thread did before post() is visible to the thread whose wait is released by the event afterwards.",
  "every execution under the C++11 memory model, whether or not the event was already signalled when posted",
  "the already-signalled path performs no store, which only matters on weakly ordered hardware or under compiler reordering",
  [I+"detail/events/auto_reset_event_futex.hpp: post (fence-only path)", I+"events/auto_reset_event.hpp"])
p("C23", "auto_reset_event (futex): linearizable as a binary event",
  "Two completed posts with no successful wait between them allow at most two successful waits only if one of them was already blocked; every history of the event is explainable by a single set/unset flag.",
  "all histories of any number of threads", "requires enumerating all histories",
  [I+"detail/events/auto_reset_event_futex.hpp: post, try_wait"])
# ---------------- auto reset event semaphore
p("C24", "auto_reset_event (semaphore based): every post releases at most one waiter",
  "The number of completed successful waits never exceeds the number of posts.",
  "every number of threads, every interleaving of post/wait/try_wait/timed_wait", SCHED,
  [I+"detail/events/auto_reset_event_semaphore.hpp: auto_reset_event"])
p("C25", "auto_reset_event (semaphore based): no lost wake-up",
  "There is no reachable state in which a thread is blocked, a post has been made that nobody consumed, and no thread can take a step.",
  "every reachable state of every execution", SCHED,
  [I+"detail/events/auto_reset_event_semaphore.hpp: post, wait"])
p("C26", "auto_reset_event (semaphore based): an event nobody waits for remembers at most one post",
  "Whenever no call is in progress, at most one wait can succeed before the next post.",
  "every reachable state of every execution, including executions in which try_wait or timed_wait fail",
  "needs two posts inside the two-instruction window of a failing try_wait",
  [I+"detail/events/auto_reset_event_semaphore.hpp: try_wait, timed_wait"])
# ---------------- emulated events
p("C27", "auto_reset_event (emulation): behaves as a binary event",
  "post/wait/try_wait/timed_wait of the mutex+condition-variable emulation are a refinement of an atomic flag: each successful wait atomically takes the flag set by a post, a failed one leaves it unchanged, and nobody sleeps while the flag is set unless a wake-up is on its way.",
  "every execution of any number of threads, with spurious wake-ups and timeouts", SCHED,
  [I+"detail/events/auto_reset_event_emulation.hpp: auto_reset_event"])
p("C28", "manual_reset_event (emulation): behaves as a flag; set releases all blocked threads",
  "wait/try_wait/timed_wait return success only if the flag was set at an instant during the call, and while the flag is set no thread stays blocked without a wake-up on its way.",
  "every execution of any number of threads, with spurious wake-ups and timeouts", SCHED,
  [I+"detail/events/manual_reset_event_emulation.hpp: manual_reset_event"])
# ---------------- manual reset event futex
p("C29", "manual_reset_event (futex): no lost wake-up",
  "There is no reachable state in which the event is set, a thread is asleep in wait() and no thread can take a step; once set() returned and nobody resets, no thread is asleep.",
  "every reachable state of every execution of fewer than 2^31 threads", SCHED,
  [I+"detail/events/manual_reset_event_futex.hpp: set, wait, priv_timed_wait"])
p("C30", "manual_reset_event (futex): success implies the event was set",
  "wait() returning, or try_wait/timed waits returning true, implies the event was set at some instant during the call; set and reset never disturb the count of waiting threads.",
  "every execution of fewer than 2^31 threads", SCHED,
  [I+"detail/events/manual_reset_event_futex.hpp: manual_reset_event"])
p("C31", "manual_reset_event (futex): set publishes, successful wait observes",
  "Everything done before a set() is visible after a wait that succeeded because of it or of a later set().",
  "every execution under the C++11 memory model", "x86 hides missing ordering",
  [I+"detail/events/manual_reset_event_futex.hpp: set (fetch_or release), wait/try_wait (acquire)"])
# ---------------- semaphore
p("C32", "semaphore: permits are conserved",
  "initial count + posts - successful waits = available permits, and it never becomes negative; failing waits (timeout, interruption, try_wait on zero) consume nothing; a post refused with overflow_error adds nothing.",
  "every history of post/wait/try_wait/timed_wait calls of any number of threads and every OS result (EINTR, ETIMEDOUT, EAGAIN, EOVERFLOW)",
  "unbounded histories and OS failures at every point",
  [I+"detail/semaphore/semaphore_posix.hpp", I+"detail/semaphore/semaphore_emulation.hpp", I+"detail/semaphore/semaphore_windows.hpp", I+"detail/semaphore/semaphore_dispatch.hpp", I+"detail/semaphore/basic_semaphore_mach.hpp"])
p("C33", "semaphore (emulation): no lost wake-up",
  "There is no reachable state in which a permit is available, a thread is blocked in wait() and no thread can take a step.",
  "every reachable state of every execution of any number of threads, with spurious wake-ups and timeouts", SCHED,
  [I+"detail/semaphore/semaphore_emulation.hpp: post, wait, timed_wait"])
# ---------------- Windows condition variable
p("C34", "Windows condition variable: waiter accounting",
  "The number of threads the condition variable believes to be blocked and not yet notified equals the number of threads that really are, in every state between critical sections of its internal mutex.",
  "every execution of any number of threads calling wait/timed wait/notify_one/notify_all, with timeouts and failing waits at any point", SCHED,
  [I+"detail/condition_variables/basic_condition_variable_windows.hpp: basic_condition_variable"])
p("C35", "Windows condition variable: no lost notification",
  "A notification issued while a thread is blocked is delivered: there is no reachable state with an undelivered notification in which all threads it may go to are asleep and none can take a step.",
  "every reachable state of every execution of any number of threads", SCHED,
  [I+"detail/condition_variables/basic_condition_variable_windows.hpp: wake_waiters, priv_wait, priv_timed_wait"])
p("C36", "Windows condition variable: notifications cannot be stolen by later waiters",
  "A thread that starts waiting after a notify call completed its bookkeeping cannot consume that notification in place of a thread already waiting.",
  "every execution of any number of threads", "requires the rare schedule described in the source comment",
  [I+"detail/condition_variables/basic_condition_variable_windows.hpp: initiate_wait, waiter_state"])
p("C37", "Windows condition variable: a wait returns no_timeout only if notified, and notify_all releases everybody",
  "Each return with no_timeout is matched by exactly one notification unit; notify_one issues exactly one unit when somebody is blocked and none otherwise; notify_all issues exactly as many units as there are blocked threads. The notify loop terminates.",
  "every execution of any number of threads, every ring configuration", "unbounded ring sizes and histories",
  [I+"detail/condition_variables/basic_condition_variable_windows.hpp: notify_one, notify_all, wake_waiters"])
p("C38", "Windows condition variable: every wait returns or throws with the user lock held",
  "Whatever fails inside (semaphore creation, timer, OS wait), the caller's lock is held again when the call returns or throws, and it is released at most once during the call; a wait that throws leaves the bookkeeping consistent.",
  "every failure point of wait and the timed waits", "fault injection at every point",
  [I+"detail/condition_variables/basic_condition_variable_windows.hpp: relocker, wait, timed_wait, initiate_wait"])
# ---------------- cv_any generic
p("C39", "condition_variable_any: no lost notification",
  "A notify issued after a thread's wait released the user's lock wakes that thread (or another blocked one): there is no window between releasing the user lock and blocking in which a notification is lost.",
  "every execution of any number of threads", SCHED,
  [I+"detail/condition_variables/condition_variable_any_generic.hpp: wait, notify_one, notify_all"])
p("C40", "condition_variable_any: wait returns with the user lock held and never holds its internal mutex while acquiring it",
  "On every exit path (normal or exceptional) the user's lock is held exactly as on entry and the internal mutex is released before the user's lock is re-acquired, so no cyclic wait between the two exists.",
  "every execution of any number of threads, every throw point", SCHED,
  [I+"detail/condition_variables/condition_variable_any_generic.hpp: relocker, wait, timed_wait, wait_for, wait_until"])
p("C41", "condition variables: predicate overloads",
  "wait(lock, pred) returns only when pred() is true; the timed overloads return exactly the value of pred() evaluated last, never true when that was false.",
  "every predicate behaviour, every sequence of wake-ups and timeouts", "unbounded sequences of spurious wake-ups",
  [I+"detail/condition_variables/condition_variable_posix.hpp", I+"detail/condition_variables/condition_variable_windows.hpp", I+"detail/condition_variables/condition_variable_any_generic.hpp", I+"detail/condition_variables/condition_variable_any_windows.hpp"])
p("C42", "condition variables: relative predicate waits are bounded by one timeout",
  "timed_wait(lock, duration, pred) and wait_for(lock, duration, pred) behave as if an absolute deadline now()+duration were computed once: no matter how many wake-ups happen, no wait starts after that deadline.",
  "every predicate behaviour, every sequence of wake-up times", "unbounded sequences of spurious wake-ups",
  [I+"detail/condition_variables/condition_variable_posix.hpp: timed_wait, wait_for", I+"detail/condition_variables/condition_variable_any_generic.hpp: timed_wait, wait_for"])
# ---------------- time
p("C43", "POSIX time arithmetic: adding a duration is exact and normalised",
  "For every normalised time point and duration whose exact sum is representable, time_point + duration denotes exactly that sum with 0 <= nanoseconds < 10^9.",
  "all 64-bit durations and time points, including negative durations", "2^128 inputs",
  [I+"detail/time_units.hpp: system_time_point::operator+=, operator-=, system_time_point(system_duration)"])
p("C44", "POSIX time arithmetic: difference and addition are inverse",
  "For all time points whose distance fits in 64 bits, b + (a - b) denotes a, and (a - b) is the exact signed number of nanoseconds.",
  "all time points", "2^256 inputs", [I+"detail/time_units.hpp: operator-, operator+"])
p("C45", "a negative or zero relative timeout does not block",
  "try_lock_for/wait_for/timed waits with a non-positive duration behave as an attempt with an already expired deadline.",
  "all non-positive durations at all clock readings", "2^64 durations times all clock readings",
  [I+"detail/time_units.hpp: operator+=", I+"detail/mutexes/timed_mutex_posix.hpp: priv_timed_lock", I+"detail/condition_variables/condition_variable_posix.hpp: priv_timed_wait", I+"detail/semaphore/semaphore_posix.hpp: priv_timed_wait"])
p("C46", "Windows time arithmetic",
  "Time points are exact modulo 2^64 in 100 ns units under adding durations in milliseconds whenever the product fits; the difference of two time points truncates toward zero to milliseconds.",
  "all 64-bit inputs", "2^128 inputs", [I+"detail/time_units.hpp: Windows system_time_point"])
p("C47", "unit conversion of user durations",
  "Converting a chrono or date_time duration to the internal unit is monotone, exact when the internal unit is finer, and truncates toward zero by less than one unit otherwise.",
  "all tick counts and all tick periods", "unbounded tick counts and periods",
  [I+"support/std_chrono.hpp: to_sync_unit", I+"support/boost_chrono.hpp", I+"support/boost_date_time.hpp: to_sync_unit", I+"support/posix_time.hpp"])
p("C48", "timed waits against a user clock: false only after the deadline",
  "timed lock/wait against a non-system clock reports a timeout only if the user's clock was read at or past the deadline; success is reported only if the underlying primitive reported success.",
  "every clock behaviour (including clocks that jump backwards or run at another rate) and every result sequence of the underlying primitive",
  "unbounded clock/OS behaviours",
  [I+"detail/mutexes/timed_mutex_posix.hpp: priv_timed_lock(chrono)", I+"detail/events/auto_reset_event_futex.hpp: priv_timed_wait(chrono)", I+"detail/semaphore/semaphore_posix.hpp", I+"detail/condition_variables/condition_variable_posix.hpp"])
p("C49", "timed waits against a user clock: an expired deadline still tries once",
  "A timed wait whose deadline has already passed still succeeds if the resource is available.",
  "every primitive and every clock reading", "enumerating primitives, clock values and availability",
  [I+"detail/semaphore/basic_semaphore_mach.hpp: timed_wait", I+"detail/semaphore/semaphore_dispatch.hpp", I+"detail/events/manual_reset_event_futex.hpp", I+"detail/mutexes/timed_mutex_windows.hpp"])
p("C50", "Windows timed waits: chunked waiting adds up exactly",
  "A wait longer than the OS maximum is split into chunks that add up to exactly the requested time; no chunk is INFINITE; a non-positive time performs no wait; the loop terminates.",
  "all 64-bit durations", "2^64 durations, waits of up to 292 million years",
  [I+"detail/events/basic_event_windows.hpp: timed_wait", I+"detail/semaphore/semaphore_windows.hpp: priv_timed_wait", I+"detail/mutexes/timed_mutex_windows.hpp: priv_timed_lock"])
p("C51", "relative timed waits are bounded by one timeout in spite of wake-ups",
  "However often a relative timed wait is woken without success (signals, spurious wake-ups, another thread taking the post), the total time blocked never exceeds the requested duration.",
  "every sequence of wake-up instants", "unbounded wake-up sequences",
  [I+"detail/events/auto_reset_event_futex.hpp: priv_timed_wait(system_duration)", I+"detail/events/manual_reset_event_futex.hpp: priv_timed_wait(system_duration)", I+"detail/events/auto_reset_event_emulation.hpp: timed_wait", I+"detail/mutexes/timed_mutex_windows.hpp"])
p("C52", "futex timeout splitting",
  "The relative timeout given to the kernel always has 0 <= tv_nsec < 10^9 and equals the requested nanoseconds.",
  "all positive 64-bit durations", "2^63 inputs", [I+"detail/futex.hpp: futex_timedwait"])
# ---------------- locks
p("C53", "unique_lock: ownership bookkeeping matches the mutex over every history",
  "Over every history of constructions, lock/try_lock/timed variants, unlock, release, moves, swaps and destructions of any number of unique_lock objects, a lock object reports ownership only for a mutex it really acquired, every acquisition is released exactly once (by unlock, by destruction or handed out by release()), and a mutex is never unlocked by a lock that does not own it.",
  "every finite history over any number of lock objects and mutexes, every try result", "unbounded histories",
  [I+"locks/unique_lock.hpp: unique_lock"])
p("C54", "lock wrappers: misuse throws and changes nothing",
  "lock/try_lock/timed_lock on a lock without mutex or already owning, and unlock on a non-owning lock, throw the documented error and leave the lock object and the mutex untouched; if the mutex operation throws, the lock object is unchanged.",
  "every state of the wrapper and every outcome of the mutex operation", "enumerates all states, outcomes and operations for three wrappers",
  [I+"locks/unique_lock.hpp", I+"locks/shared_lock.hpp", I+"locks/upgrade_lock.hpp"])
p("C55", "shared_lock and upgrade_lock: ownership bookkeeping over every history",
  "Same as C53 for shared_lock and upgrade_lock: shared/upgrade acquisitions and releases on the mutex are balanced, never negative, and destruction releases exactly what is owned.",
  "every finite history over any number of lock objects and mutexes", "unbounded histories",
  [I+"locks/shared_lock.hpp: shared_lock", I+"locks/upgrade_lock.hpp: upgrade_lock"])
p("C56", "lock conversions preserve ownership",
  "Converting between unique, upgrade and shared locks keeps exactly one ownership of the converted kind, leaves the source without ownership, and a failing (try/timed) upgrade leaves the source lock as it was.",
  "every state of the source and every outcome of the mutex operation", "all conversions times all states",
  [I+"locks/unique_lock.hpp: converting constructors", I+"locks/shared_lock.hpp: converting constructors and assignments", I+"locks/upgrade_lock.hpp: converting constructors"])
p("C57", "scoped guards are balanced",
  "Code run under arbitrarily nested lock_guard/shared_lock_guard/unlock_guard scopes leaves the mutex exactly as it found it on every exit, normal or exceptional, and inside each scope the mutex is in the state the guard promises.",
  "every nesting structure and every exit point", "unbounded nesting",
  [I+"locks/lock_guard.hpp", I+"locks/shared_lock_guard.hpp", I+"locks/unlock_guard.hpp"])
# ---------------- TSS
p("C58", "thread_specific_ptr: a thread reads what it last wrote",
  "get() returns the value most recently set by the same thread through the same object, or null; operations of other threads or on other objects never change it.",
  "every history of set/get/new/delete over any number of threads and keys", "unbounded histories",
  ["src/tss_manager.hpp: get_value, set_value, new_key, delete_key", "src/tss_pthread.cpp", "src/tss_windows.cpp", I+"thread_specific/thread_specific_ptr.hpp"])
p("C59", "thread_specific_ptr: keys of live objects are distinct and recycled keys start null in every thread",
  "No two live thread_specific_ptr objects share storage; a new object reads null in every running thread even if its key was used before.",
  "every history over any number of threads and objects in which objects are destroyed only while no owning thread is exiting", "unbounded histories",
  ["src/tss_manager.hpp: new_key, delete_key"])
p("C60", "thread_specific_ptr: every value is cleaned up exactly once",
  "Each non-null value stored is passed to the object's cleanup exactly once: when replaced by reset, when its thread exits, or when the object is destroyed; a released value is never cleaned up. Nothing is leaked or freed twice.",
  "every history of reset/release/thread exit/destruction over any number of threads and objects", "unbounded histories",
  ["src/tss_manager.hpp: destroy_thread_context, delete_key", I+"thread_specific/thread_specific_ptr.hpp: reset, release, ~thread_specific_ptr"])
p("C61", "thread_specific_ptr: destroying an object while a thread exits is safe",
  "If an object is destroyed (and another created) while some thread is running its exit cleanups, values are still cleaned up exactly once by the cleanup of the object they were stored in.",
  "every point of the exit sequence at which the object may be destroyed", "needs a destruction in the middle of another object's cleanup",
  ["src/tss_manager.hpp: destroy_thread_context, delete_key, new_key"])
p("C62", "at_thread_exit: callbacks run exactly once in reverse order",
  "At thread exit each registered callback runs exactly once; callbacks registered before exit run in reverse order of registration; callbacks registered by callbacks run afterwards, again most recent first.",
  "every number of callbacks and every nesting of registrations from within callbacks", "unbounded nesting",
  ["src/tss_manager.hpp: destroy_thread_context, add_at_exit_entry", I+"thread_specific/at_thread_exit.hpp"])
p("C63", "thread exit ordering",
  "All exit callbacks precede all thread-specific cleanups, which precede all notify_all_at_thread_exit notifications; notifications happen in registration order, each after unlocking its mutex, each exactly once.",
  "every context content and every behaviour of callbacks and cleanups", "unbounded contents",
  ["src/tss_manager.hpp: destroy_thread_context", I+"condition_variables/notify_all_at_thread_exit.hpp"])
p("C64", "callbacks registered during thread-specific cleanup are not lost",
  "A callback registered with at_thread_exit by a cleanup function running at thread exit is still executed.",
  "every context content and every behaviour of cleanups", "needs registration from within a cleanup",
  ["src/tss_manager.hpp: destroy_thread_context", "src/tss_windows.cpp: on_thread_exit", "src/tss_pthread.cpp: tss_cleanup"])
p("C65", "thread exit processing happens for every thread on every configuration",
  "Whatever configuration macros are chosen, a thread that registered a callback or stored a thread-specific value has its exit processing executed when it terminates.",
  "every supported configuration (compiler TLS or pthread keys)", "tests run one configuration",
  ["src/tss_pthread.cpp: init_tss, set_thread_context", I+"detail/config.hpp: BOOST_SYNC_DETAIL_TLS"])
p("C66", "one-time initialisation (Windows)",
  "The TSS manager and the waitable-timer context are initialised exactly once; no caller proceeds before initialisation completed; in the timer case a failed initialisation lets a later caller retry.",
  "every number of threads, every interleaving, failure at any attempt", SCHED,
  ["src/tss_windows.cpp: init_tss_once", I+"detail/waitable_timer.hpp: init"])
p("C67", "waitable timer: process-unique semaphore name",
  "Distinct process ids yield distinct semaphore names, and the same process id always yields the same name.",
  "all 2^32 process ids", "2^64 pairs", [I+"detail/waitable_timer.hpp: sem_name encoding"])
p("C68", "Windows mutex: lazily created event is unique",
  "All threads that ever obtain the event of a mutex obtain the same one, it is never replaced, and every other event created in the race is closed exactly once.",
  "every number of threads and every interleaving", SCHED,
  [I+"detail/mutexes/basic_mutex_windows.hpp: get_event"])
p("C69", "POSIX wrappers: interruption by signals is never reported",
  "mutex, condition variable and semaphore waits never return or throw because of EINTR; they retry until the OS gives a definite answer, and report exactly that answer.",
  "every finite number of interruptions before the answer", "unbounded numbers of interruptions",
  [I+"detail/pthread.hpp", I+"detail/semaphore/semaphore_posix.hpp: wait, priv_timed_wait", I+"detail/mutexes/mutex_posix.hpp", I+"detail/condition_variables/condition_variable_posix.hpp"])
p("C70", "semaphore (dispatch): initial permits",
  "A semaphore constructed with initial count i lets exactly i waits through before the first post.",
  "all initial counts", "2^32 counts", [I+"detail/semaphore/semaphore_dispatch.hpp: semaphore(unsigned int)"])
# ---------------- added while modelling
p("C71", "Mach semaphore: the whole timeout reaches the kernel",
  "The timeout given to the Mach kernel by a relative wait denotes exactly the requested number of nanoseconds.",
  "all non-negative 64-bit durations", "2^63 inputs; the failing ones take more than a century",
  [I+"detail/semaphore/basic_semaphore_mach.hpp: priv_timed_wait(system_duration)"])
p("C72", "thread-specific storage: no data races inside the manager",
  "No two threads access the same memory of the TSS manager (list of contexts, table of keys, value tables of the threads) at the same time, one of them writing, unless both hold the manager's mutex.",
  "every number of threads and keys and every interleaving of get, set, create, delete and thread exit", SCHED,
  ["src/tss_manager.hpp: new_key, delete_key, set_value, get_value, destroy_thread_context"])
p("C73", "waitable timer: one TLS slot for all modules",
  "All modules of a process use the same TLS slot for their timers and no further slot stays allocated, unless an OS call fails; whatever fails, a slot in use is never freed and no slot is lost.",
  "every number of modules and threads, every interleaving, every combination of failing OS calls", SCHED,
  [I+"detail/waitable_timer.hpp: init"])
p("C74", "waitable timer: one timer per thread, released exactly once",
  "All calls by one thread obtain the same open timer; whatever a failed call or an ended thread obtained from the OS is released exactly once.",
  "every sequence of calls and every combination of failing OS calls", "needs injected OS failures",
  [I+"detail/waitable_timer.hpp: create_thread_local_context, ~thread_local_context, get_waitable_timer"])
p("C75", "waitable timer: semaphore handles are released at exit",
  "The handlers registered for the exit of the process close every handle of the named semaphore that was opened.",
  "every number of modules and threads, every interleaving, every combination of failing OS calls", "needs injected OS failures",
  [I+"detail/waitable_timer.hpp: init, destroy"])

p("C76", "emulations: interrupted waits lose no wake-up",
  "On platforms for which the workaround for interrupted pthread calls is compiled in (BOOST_SYNC_HAS_PTHREAD_EINTR_BUG), a thread does not stay blocked in an emulated event, semaphore or timed_mutex that is ready while no other thread can take a step.",
  "every number of threads, every interleaving, interruptions, timeouts, spurious wake-ups and failures at any point", SCHED,
  [I+"detail/pthread.hpp: pthread_cond_wait, pthread_cond_timedwait", I+"detail/mutexes/timed_mutex_posix.hpp", I+"detail/semaphore/semaphore_emulation.hpp", I+"detail/events/auto_reset_event_emulation.hpp", I+"detail/events/manual_reset_event_emulation.hpp"])
p("C77", "emulations: an operation that throws has no effect",
  "If locking the internal mutex or waiting on the internal condition variable fails and an operation of an emulated event, semaphore or timed_mutex is left by an exception, the object behaves as if the operation had never been called; the internal mutex is released.",
  "every number of threads, every interleaving, every choice of failing calls", "needs injected OS failures",
  [I+"detail/semaphore/semaphore_emulation.hpp", I+"detail/events/auto_reset_event_emulation.hpp", I+"detail/events/manual_reset_event_emulation.hpp", I+"detail/mutexes/timed_mutex_posix.hpp"])
p("C78", "auto_reset_event (semaphore): a wait that throws has no effect",
  "If the wait of the underlying semaphore throws, the event behaves as if the wait had never been called: afterwards at most one post is remembered, none is lost, and no post is consumed by the wait that threw.",
  "every number of threads, every interleaving, every choice of failing calls", "needs injected OS failures",
  [I+"detail/events/auto_reset_event_semaphore.hpp: wait, try_wait, timed_wait"])
p("C79", "condition_variable (POSIX): mutex and results",
  "Every wait returns or throws with the mutex held; it releases the mutex only as its owner. With a predicate the result is the value of the predicate at the moment of the return; without, no_timeout means that the thread was notified or woken by the system. Only timed waits give a negative result, and only after their time limit was reported to be reached.",
  "every number of threads, every interleaving, every data type, predicate and clock; spurious wake-ups, interruptions, failures at any point", SCHED,
  [I+"detail/condition_variables/condition_variable_posix.hpp: wait, timed_wait, wait_until, wait_for, priv_wait, priv_timed_wait"])
p("C80", "condition_variable (POSIX): no lost notification",
  "When every change of the data has been followed by a notify_all, no thread sleeps whose predicate holds. notify_one wakes one sleeper if there is one, notify_all all of them. A notified thread returns once it gets the mutex if its predicate holds.",
  "every number of threads, every interleaving, every data type, predicate and clock; spurious wake-ups, interruptions, failures at any point", SCHED,
  [I+"detail/condition_variables/condition_variable_posix.hpp: notify_one, notify_all, priv_timed_wait", I+"detail/pthread.hpp: pthread_cond_wait, pthread_cond_timedwait"])
p("C81", "mutex (Windows): unlock does not access the mutex after releasing it",
  "Once the mutex has been released by unlock, the call does not access it any more, so that the thread which locks and unlocks it last may destroy it.",
  "every number of threads, every interleaving", SCHED,
  [I+"detail/mutexes/basic_mutex_windows.hpp: unlock"])
p("C82", "condition_variable (Windows): destruction after the notification",
  "When every waiting thread has been notified and the notifying calls have returned, the condition variable may be destroyed: its counters are zero, its internal mutex is free and no waiting thread accesses it any more.",
  "every number of threads, every interleaving", SCHED,
  [I+"detail/condition_variables/basic_condition_variable_windows.hpp: ~basic_condition_variable, priv_wait, wake_waiters"])
p("C83", "condition_variable (Windows): the destructor frees every waiter state once",
  "Whatever waits and notifications have happened, the destructor ends, deletes every waiter state (and closes its semaphore) exactly once, and accesses none after its deletion; no waiter state is lost before.",
  "every number of threads, every interleaving, failures to create waiter states", SCHED,
  [I+"detail/condition_variables/basic_condition_variable_windows.hpp: ~basic_condition_variable, initiate_wait, wake_waiters"])
p("C84", "events (Windows): atomic flag, also when OS calls fail",
  "The events on Windows behave as a flag on which every operation acts at one moment between its call and its return: a wait that succeeds has consumed one signal (auto-reset) or seen the event set, one that returns false has seen it unset and changed nothing, an operation that throws has changed nothing. A set event keeps no thread waiting. A relative wait that fails has waited as long as asked, in pieces the OS accepts.",
  "every number of threads, every interleaving, timeouts, clock readings and failing OS calls", SCHED,
  [I+"detail/events/basic_event_windows.hpp: set, reset, wait, try_wait, timed_wait", I+"detail/events/auto_reset_event_windows.hpp", I+"detail/events/manual_reset_event_windows.hpp"])
p("C85", "constructors and destructors: no OS object is leaked or destroyed twice",
  "A constructor that throws because the OS cannot create an object leaves no OS object behind; the destructor destroys exactly the OS objects the constructor created, each once.",
  "every class with OS objects, every choice of failing calls", "needs injected OS failures",
  [I+"detail/mutexes/mutex_posix.hpp: mutex, ~mutex", I+"detail/mutexes/timed_mutex_posix.hpp: timed_mutex, ~timed_mutex", I+"detail/condition_variables/condition_variable_posix.hpp", I+"detail/semaphore/semaphore_posix.hpp", I+"detail/semaphore/semaphore_dispatch.hpp", I+"detail/semaphore/basic_semaphore_mach.hpp", I+"detail/semaphore/semaphore_windows.hpp", I+"detail/events/basic_event_windows.hpp", I+"detail/semaphore/semaphore_emulation.hpp"])

p("C86", "thread-specific storage: strong guarantee when resources are exhausted",
  "An operation on thread-specific storage or thread exit callbacks that fails throws, changes nothing anybody can see and leaks nothing; one that returns normally has had its effect; when all threads have exited every registered function object has been called once and deleted and every mutex handed over has been unlocked.",
  "every history of calls by any number of threads, every choice of failing allocations, locks and OS calls", "needs injected failures of single allocations and OS calls",
  ["src/tss_manager.hpp: create_thread_context, set_value, add_at_exit_entry, add_notify_at_exit_entry, new_key, delete_key, destroy_thread_context", "src/tss_pthread.cpp", "src/tss_windows.cpp", I+"thread_specific/at_thread_exit.hpp: at_thread_exit", I+"thread_specific/thread_specific_ptr.hpp: reset, release", I+"condition_variables/notify_all_at_thread_exit.hpp: notify_all_at_thread_exit"])
p("C87", "thread-specific storage on Windows: the exit of the process",
  "on_process_exit deals with everything any thread has handed over (passes every value to its cleanup function, calls every callback, unlocks every mutex in the thread that handed it over), each exactly once, and returns; neither it nor any call made by the functions it calls, or after it, uses the manager or a context after it has been deleted; hooks called again do nothing.",
  "every number of threads, every interleaving of calls and hooks, every behaviour of callbacks and cleanup functions, both ways to find the context of a thread", "needs the process to exit or the library to be unloaded at each moment",
  ["src/tss_windows.cpp: on_process_exit, on_thread_exit, get_thread_context, set_thread_specific, get_thread_specific, add_thread_exit_callback, add_thread_exit_notify_entry, new_thread_specific_key, delete_thread_specific_key", "src/tss_manager.hpp: ~tss_manager, destroy_thread_context", "src/tss_windows_dll.cpp: DllMain", "src/tss_windows_pe.cpp: on_process_init, on_process_term, on_tls_callback, dll_callback"])

p("C88", "thread-specific storage on Windows: the hooks are called",
  "However the library is built, each thread that ends calls on_thread_exit; the thread that ends the process (or unloads the library) calls on_thread_exit and after that on_process_exit; no on_thread_exit follows an on_process_exit. So what a thread has handed over is dealt with in that thread, and if all threads have left on_process_exit finds nothing to do.",
  "every way to build the library (DLL, MSVC static in a program or DLL, MinGW recent and old), every sequence of threads starting and ending, every execution in which the hooks are called by the loader only", "needs each compiler and a process that exits",
  ["src/tss_windows_dll.cpp: DllMain", "src/tss_windows_pe.cpp: on_tls_callback, on_process_init, on_process_term, dll_callback", "src/tss_windows_hooks.hpp", "src/tss_windows.cpp: on_thread_exit, on_process_exit"])

p("C89", "semaphore-based auto_reset_event: memory order of posts",
  "A wait that succeeds knows what was done before every post that returned before the wait was called, and a post made while a thread is blocked wakes it or another, also when loads read values that are not the newest, as the C++ memory model permits.",
  "every number of threads and every execution; relaxed loads and failing compare-exchanges read any value not older than one known; threads also synchronise by other means", "weakly ordered hardware shows it rarely, if at all",
  [I + "detail/events/auto_reset_event_semaphore.hpp: post, wait, try_wait, timed_wait"])

p("C90", "futex auto_reset_event: what post and failing waits find, under weak memory",
  "A post made while a thread is blocked and all earlier posts are used up wakes it, and a wait fails only if there is no post to take, also when relaxed loads read values that are not the newest, as the C++ memory model permits.",
  "every execution of at most 1023 threads; relaxed loads and failing compare-exchanges read any value not older than one known; threads also synchronise by other means", "weakly ordered hardware shows it rarely, if at all",
  [I + "detail/events/auto_reset_event_futex.hpp: post, wait, try_wait, priv_timed_wait, on_wait_timed_out"])

p("C91", "events, semaphores and mutexes: destruction by the thread that was released",
  "post, set and unlock make no access to the object after a wait (lock) they released has returned: when every signal has been consumed and no other call is pending, the object may be destroyed.",
  "every number of threads, every interleaving; spin mutexes, emulations, the event over a semaphore, the events on futexes", SCHED,
  [I + "detail/events/auto_reset_event_emulation.hpp: post", I + "detail/events/manual_reset_event_emulation.hpp: set", I + "detail/semaphore/semaphore_emulation.hpp: post",
   I + "detail/mutexes/timed_mutex_posix.hpp: unlock", I + "detail/events/auto_reset_event_semaphore.hpp: post", I + "detail/events/auto_reset_event_futex.hpp: post",
   I + "detail/events/manual_reset_event_futex.hpp: set", I + "detail/mutexes/spin_mutex.hpp: unlock", I + "detail/mutexes/shared_spin_mutex.hpp: unlock, unlock_shared"])

FAILS = "The failures of the operating system (no memory, no handles, deadlock detected, semaphore at its limit) cannot be provoked in a test, and their combinations even less."
p("C92", "failures of the operating system are reported",
  "A function that has called the operating system returns normally only if none of its calls has failed; if one has, it throws the exception of the right class (lock_error, wait_error, resource_error, overflow_error, runtime_exception) with the error code that the system gave for a failed call. Timeouts, busy mutexes and interruptions are not failures. Debug builds stop with an assertion only after misuse.",
  "every sequence of documented answers of the system, every value of shared memory; all functions of the POSIX, Windows, Mach and Dispatch back ends that call the system; debug and release builds, with and without the workaround for EINTR, with and without pthread_mutex_timedlock", FAILS,
  [I + "detail/mutexes/mutex_posix.hpp", I + "detail/mutexes/timed_mutex_posix.hpp", I + "detail/condition_variables/condition_variable_posix.hpp", I + "detail/semaphore/semaphore_posix.hpp",
   I + "detail/mutexes/basic_mutex_windows.hpp", I + "detail/mutexes/timed_mutex_windows.hpp", I + "detail/events/basic_event_windows.hpp", I + "detail/semaphore/semaphore_windows.hpp",
   I + "detail/condition_variables/basic_condition_variable_windows.hpp", I + "detail/waitable_timer.hpp", I + "detail/auto_handle.hpp", I + "detail/semaphore/basic_semaphore_mach.hpp",
   I + "detail/semaphore/semaphore_dispatch.hpp", I + "detail/condition_variables/condition_variable_any_generic.hpp", I + "detail/semaphore/semaphore_emulation.hpp", I + "exceptions/"])
p("C93", "functions that must not throw do not terminate the process",
  "Destructors, unlock, notify_one, notify_all and the other functions declared noexcept neither throw nor let an exception reach std::terminate, whatever the operating system answers; no exception is thrown while another one propagates.",
  "every sequence of documented answers of the system, every value of shared memory; debug and release builds", FAILS,
  [I + "detail/mutexes/mutex_posix.hpp: unlock", I + "detail/mutexes/basic_mutex_windows.hpp: unlock, get_event", I + "detail/condition_variables/basic_condition_variable_windows.hpp: notify_one, notify_all, relocker",
   I + "detail/events/auto_reset_event_semaphore.hpp: post", I + "detail/condition_variables/condition_variable_any_generic.hpp: relocker", I + "detail/waitable_timer.hpp", I + "detail/auto_handle.hpp"])

p("C94", "results say whether the object has been acquired",
  "A function that waits on or locks an object of the operating system returns normally (or returns true) if and only if exactly one of its calls has acquired the object, however often it was interrupted; when it returns false or throws it has acquired nothing. It returns false only if the system said that the object is not available or that the time is over, or the user's clock did; a duration has passed in full. Where the object is shared data, the result is that of the last look at it.",
  "every sequence of documented answers of the system, every value of shared memory and of the user's clock; POSIX mutexes and semaphores, Windows events and semaphores, Mach and Dispatch semaphores, and events over semaphores; debug and release builds", FAILS,
  [I + "detail/mutexes/mutex_posix.hpp", I + "detail/mutexes/timed_mutex_posix.hpp", I + "detail/semaphore/semaphore_posix.hpp: wait, try_wait, timed_wait", I + "detail/events/basic_event_windows.hpp",
   I + "detail/semaphore/semaphore_windows.hpp", I + "detail/semaphore/basic_semaphore_mach.hpp", I + "detail/semaphore/semaphore_dispatch.hpp", I + "detail/events/auto_reset_event_semaphore.hpp"])
p("C95", "internal mutexes and the user's lock are given back",
  "The emulations and condition_variable_any touch their shared data, notify, sleep and unlock the user's lock only while they own the internal mutex, and lock the user's lock only while they do not; however a function is left, the internal mutex has been unlocked. A wait on a condition variable sleeps only while the user's lock is unlocked and leaves it locked, whether it returns or throws, unless the exception is that of the user's own lock or unlock.",
  "every sequence of documented answers of the system, every value of shared memory, every exception of the user's lock; debug and release builds", FAILS,
  [I + "detail/condition_variables/condition_variable_any_generic.hpp", I + "detail/condition_variables/basic_condition_variable_windows.hpp", I + "detail/events/auto_reset_event_emulation.hpp",
   I + "detail/events/manual_reset_event_emulation.hpp", I + "detail/semaphore/semaphore_emulation.hpp", I + "detail/mutexes/timed_mutex_posix.hpp", I + "detail/pthread_mutex_locks.hpp"])

p("C96", "no livelock: retry loops cost a bounded number of steps per call",
  "In every run of a component with retry loops the number of steps is at most a constant (depending on the number of threads only) times the number of steps for which users or the environment are responsible: calls, the users' work, spurious wake-ups and failures, outdated loads, spinning while somebody owns the lock or initialises the object. So the threads cannot keep each other busy for ever. When these steps stop, the component comes to rest, whatever the schedule; then every call has returned or waits for something that only a user can bring about: a post, a set, an unlock.",
  "every run, every number of threads, every interleaving, spurious failures and outdated loads included", "livelocks need a particular infinite schedule; a test that terminates has not met one",
  [I + "detail/events/auto_reset_event_futex.hpp", I + "detail/events/manual_reset_event_futex.hpp", I + "detail/mutexes/basic_mutex_windows.hpp", I + "detail/mutexes/timed_mutex_windows.hpp", I + "detail/mutexes/spin_mutex.hpp",
   I + "detail/mutexes/shared_spin_mutex.hpp", I + "detail/events/auto_reset_event_semaphore.hpp", I + "detail/condition_variables/condition_variable_any_generic.hpp",
   I + "detail/condition_variables/basic_condition_variable_windows.hpp", I + "detail/condition_variables/condition_variable_posix.hpp", I + "detail/semaphore/semaphore_emulation.hpp", I + "detail/events/auto_reset_event_emulation.hpp",
   I + "detail/events/manual_reset_event_emulation.hpp", I + "detail/waitable_timer.hpp: init, get_waitable_timer", "src/tss_windows.cpp: init_tss_once"])

p("C97", "Windows condition variable: units left in a semaphore and a full semaphore do no harm",
  "A wait that times out while it is being notified returns without taking its unit out of the semaphore, so units are left behind. The count of a semaphore never exceeds the maximum LONG_MAX; when it would, ReleaseSemaphore fails and wake_waiters ignores that, which can happen with two threads. Nevertheless, with at most 2^30 threads, every outstanding notification finds a unit in the semaphore of its node and no notification is lost. A unit left behind can wake a later wait for nothing (arbitrarily often, up to the maximum), which then goes on waiting.",
  "every interleaving of waits, timeouts and notifications of at most 2^30 threads, every number of units left behind", "filling a semaphore takes 2^31 waits that time out in a race with a notification",
  [I + "detail/condition_variables/basic_condition_variable_windows.hpp: wake_waiters, priv_wait, priv_timed_wait"])

p("C98", "Configuration: each class gets exactly one supported implementation, whatever is included in whatever order",
  "The macros and declarations of each header do not depend on which headers are included before it. Exactly one platform is selected and the ABI namespace is named. Each class gets exactly one implementation; the system supports it, and it is an emulation only where the system has nothing better. BOOST_SYNC_USE_PTHREAD keeps everything but pthreads and POSIX out. Classes of members are declared before they are used, and an auto reset event over a semaphore is over a semaphore of the system. Futex calls that wait and that wake agree on FUTEX_PRIVATE_FLAG if the system defines both macros or neither.",
  "every set of macros of compiler, system and user, every sequence of includes", "a test runs on one system with one order of includes; nobody owns all the systems the headers select by",
  [I + "detail/config.hpp", I + "detail/semaphore_config.hpp", I + "detail/atomic.hpp", I + "detail/pthread.hpp", I + "detail/futex.hpp", I + "mutexes/mutex.hpp", I + "events/auto_reset_event.hpp"])
p("C99", "Configuration: classes with the same mangled name have the same members",
  "The inline namespace (posix, linux_, windows6, windows_, mach) is part of the name of each class. Where two translation units of one program have classes of the same name, these have the same data members.",
  "every set of macros of compiler, system and user, every sequence of includes", "mixing translation units of different settings corrupts memory silently",
  [I + "detail/config.hpp: BOOST_SYNC_DETAIL_ABI_NAMESPACE", I + "detail/semaphore_config.hpp", I + "detail/atomic.hpp"])
p("C100", "Configuration: headers leave the compiler's diagnostics as they were",
  "header.hpp saves the state of the warnings and footer.hpp restores it. After any includes the stack of saved states is as before.",
  "every set of macros of compiler, system and user, every sequence of includes", "an unbalanced pop shows up as a missing or an additional warning in code of the user, with certain compilers only",
  [I + "detail/header.hpp", I + "detail/footer.hpp"])
p("C101", "Configuration: macros that describe the classes tell the truth",
  "BOOST_SYNC_DEFINES_..._CONSTEXPR_CONSTRUCTOR is defined if and only if the default constructor is constexpr, and then all members can be initialized by constants. BOOST_SYNC_DEFINES_..._NATIVE_HANDLE is defined if and only if there is a native_handle. With the condition variable over pthreads, mutexes that claim to be compatible have a native handle. BOOST_SYNC_DETAIL_TLS is defined if and only if BOOST_SYNC_USE_COMPILER_TLS is, and only with compilers that have thread local variables.",
  "every set of macros of compiler, system and user, every sequence of includes", "tests use the macros to skip what they say is not there",
  [I + "detail/mutexes/mutex_posix.hpp", I + "detail/mutexes/timed_mutex_posix.hpp", I + "detail/condition_variables/condition_variable_any_generic.hpp", I + "detail/config.hpp"])
p("C102", "Builds of the library: one implementation of thread specific storage, one hook, consistent linking",
  "Every build compiles exactly one implementation of tss.hpp and one place for the pointer of a thread. On Windows it compiles exactly one hook that cleans up when threads end: that of a DLL if the symbols are exported, that of a static library if the compiler has one. Symbols are exported by the library and imported by users; automatic linking takes the shared library if and only if symbols are imported.",
  "every set of macros of compiler, system and build", "tests build the library in one way on one system",
  ["src/tss_pthread.cpp", "src/tss_windows.cpp", "src/tss_windows_dll.cpp", "src/tss_windows_pe.cpp", I + "detail/link_config.hpp", "build/Jamfile.v2"])
p("C103", "Configuration: spin mutexes use lock-free booleans where there are some",
  "Where atomic booleans are always lock-free, spin_mutex is the class that tests before it sets.",
  "every set of macros of compiler, system and user, every sequence of includes", "both classes pass all tests",
  [I + "detail/mutexes/spin_mutex.hpp:28-33"])

p("C104", "futex manual_reset_event: what waits find, under weak memory",
  "A wait succeeds only if the event was set, and fails only if it was not set, at an instant that is not before anything the thread knows of; after a success the thread knows what was done before the set() calls up to that instant; and no thread sleeps for ever while the event is set. All this also when loads read values that are not the newest, as the C++ memory model permits.",
  "every execution of fewer than 2^31 threads; loads read any value not older than one known; threads also synchronise by other means", "weakly ordered hardware shows it rarely, if at all",
  [I + "detail/events/manual_reset_event_futex.hpp: set, reset, wait, try_wait, priv_timed_wait"])
p("C105", "manual_reset_event: reset knows what was signalled before",
  "A thread whose reset() clears the signal of a set() knows what was done before the set(), so that a thread which resets the event, tests its condition and then waits does not miss the signal. In the emulations every operation that returns knows what was done before the earlier signals.",
  "every number of threads and every execution; the emulations of semaphores, events and timed mutexes, the event on futexes", "weakly ordered hardware shows it rarely, if at all",
  [I + "detail/events/manual_reset_event_futex.hpp: reset", I + "detail/events/manual_reset_event_emulation.hpp: reset", I + "detail/events/auto_reset_event_emulation.hpp", I + "detail/semaphore/semaphore_emulation.hpp", I + "detail/mutexes/timed_mutex_posix.hpp"])

p("C106", "Windows condition variable: skipped notifications, under weak memory",
  "A notification that is skipped because the waiter count read is 0 was not needed at an instant after every change of the count that happens before the notification; a notifier that has locked the user's lock after a waiter unlocked it knows of the waiter; inside of the critical section the relaxed loads read the newest count. So no notification is lost although all accesses to the count are relaxed or synchronise with nothing.",
  "every number of threads and every execution; loads read any value not older than one that happens before; threads also synchronise by other means", "weakly ordered hardware shows it rarely, if at all",
  [I + "detail/condition_variables/basic_condition_variable_windows.hpp: notify_one, notify_all, wake_waiters, initiate_wait, priv_wait, priv_timed_wait"])

p("C107", "Exceptions tell the error they were thrown for",
  "Every place of the library that throws an exception with an error code compiles, with Boost.System and with the standard library's system_error; the exception has the class named, native_error() is the code passed, and code() compares equal to the constant of errc it was thrown with.",
  "all classes of exceptions, all values of codes of the system, all values of the constants and assignments of conditions to values, both choices of system_error", "error paths are rarely executed; the option for std::system_error is not built by the tests",
  [I + "exceptions/runtime_exception.hpp, lock_error.hpp, wait_error.hpp, overflow_error.hpp, resource_error.hpp", I + "detail/system_error.hpp", I + "detail/throw_exception.hpp", I + "locks/unique_lock.hpp: lock, try_lock, unlock"])

p("C108", "The system is asked to wait until the time the user gave",
  "Whatever the type of a time point of the system clock (std or Boost chrono with any period, Boost.DateTime, timespec), the time handed to the system is that time, rounded down to the unit of the system; a time in the past never blocks, and no timeout is reported before the time.",
  "all time points of all types, periods and epochs, POSIX and Windows", "tests use times near the present and do not measure fractions of a millisecond",
  [I + "support/std_chrono.hpp, boost_chrono.hpp, boost_date_time.hpp, posix_time.hpp: to_sync_unit", I + "detail/time_units.hpp: system_time_point", I + "detail/events/basic_event_windows.hpp: timed_wait (SetWaitableTimer)"])

p("C109", "Every timed function accepts every supported type of time",
  "With the support header included, every function with a timeout of every class can be called with every duration (functions for durations), every time point (functions for time points) of the supported libraries: any period, any representation, any clock. Types that are not supported or not of the right kind are refused at the call.",
  "all classes, functions, combinations of headers, periods, clocks", "a test would have to be compiled for every type",
  [I + "detail/time_traits.hpp", I + "detail/events/manual_reset_event_futex.hpp: priv_timed_wait", I + "detail/semaphore/semaphore_posix.hpp: priv_timed_wait", I + "detail/mutexes/timed_mutex_posix.hpp: priv_timed_lock", I + "detail/condition_variables/condition_variable_posix.hpp: priv_timed_wait"])
p("C110", "The members of the lock classes work with every mutex that has the functions they are named after",
  "Each constructor, assignment and function of unique_lock, shared_lock and upgrade_lock, including the conversions between them, can be used with every mutex that provides the corresponding function (lock, lock_shared, try_lock_upgrade, unlock_and_lock_shared, …), and needs no other.",
  "all members of the three classes, all mutexes", "members of templates that are never used are never compiled, and no mutex of the library has the functions for conversions",
  [I + "locks/unique_lock.hpp", I + "locks/shared_lock.hpp", I + "locks/upgrade_lock.hpp"])

p("C111", "Functions that do not wait return although all other threads stand still",
  "If all other threads stop taking steps, at any place inside any function, then try_lock, unlock, post, set, reset and try_wait return after a small fixed number of steps, and the functions that wait return or reach the wait of the system (where another thread has to act) after a small fixed number of steps. lock and lock_shared return if no thread owns the mutex.",
  SCHED, "a test would have to suspend the other threads at every single instruction",
  [I + "detail/mutexes/spin_mutex.hpp", I + "detail/mutexes/basic_mutex_windows.hpp", I + "detail/events/auto_reset_event_futex.hpp", I + "detail/events/manual_reset_event_futex.hpp", I + "detail/events/auto_reset_event_semaphore.hpp", I + "detail/events/basic_event_windows.hpp"])
p("C112", "Internal mutexes are held for a bounded number of steps only",
  "A thread that owns the internal mutex of an emulated event, semaphore or timed mutex, of the generic condition_variable_any or of a condition variable of Windows gives it back after a bounded number of its own steps, whatever the other threads and the system do: it never sleeps and never locks the user's lock meanwhile. While nobody else owns the internal mutex, every call returns, throws, goes to sleep in the wait of the system, or needs the user's lock that somebody else owns, after a bounded number of steps of the caller alone; calls that are not meant to wait do not sleep. For Windows the bound is the number of waiter states plus a constant.",
  SCHED, "whether the internal mutex is ever held across a blocking operation or an endless loop depends on places where no test suspends a thread",
  [I + "detail/events/auto_reset_event_emulation.hpp", I + "detail/events/manual_reset_event_emulation.hpp", I + "detail/semaphore/semaphore_emulation.hpp", I + "detail/mutexes/timed_mutex_posix.hpp", I + "detail/condition_variables/condition_variable_any_generic.hpp", I + "detail/condition_variables/condition_variable_posix.hpp", I + "detail/condition_variables/basic_condition_variable_windows.hpp"])
p("C113", "Windows condition variable: failing locks do no lasting harm",
  "Whatever fails inside a wait or a notification on Windows, also locking the internal mutex or locking the user's lock again: a wait that returns, or throws an exception that is not that of the user's lock, owns the user's lock; the internal mutex is not left locked; the number of waiters stays right, so that no later notification is lost.",
  SCHED, "the internal mutex throws only if it is locked at that moment and the system cannot create or wait for an event",
  [I + "detail/condition_variables/basic_condition_variable_windows.hpp", I + "detail/mutexes/basic_mutex_windows.hpp"])
p("C114", "a blocked call is not passed over for ever",
  "In every execution without end in which the scheduler does not forget any thread, a call that blocks returns if what it waits for is the case again and again: lock() and lock_shared() if the mutex is free again and again, wait() if the event or semaphore is signalled again and again.",
  "every execution without end under a weakly fair scheduler, every number of threads", "starvation is a property of executions without end; a test sees finite executions only",
  [I + "detail/mutexes/spin_mutex.hpp", I + "detail/mutexes/shared_spin_mutex.hpp", I + "detail/mutexes/basic_mutex_windows.hpp", I + "detail/events/auto_reset_event_futex.hpp",
   I + "detail/events/manual_reset_event_futex.hpp", I + "detail/events/auto_reset_event_semaphore.hpp", I + "detail/events/auto_reset_event_emulation.hpp", I + "detail/events/manual_reset_event_emulation.hpp",
   I + "detail/semaphore/semaphore_emulation.hpp", I + "detail/mutexes/timed_mutex_posix.hpp"])

p("C115", "a notified wait comes back",
  "In every execution without end in which no thread that can take its next step again and again is passed over for ever, every call of notify_one and notify_all ends. If the user's lock is free again and again as well, a wait that a notification woke returns, and when notify_all takes effect all waits return that had released the user's lock by then; a wait with a predicate returns if the predicate holds from then on.",
  "every execution without end under a strongly fair scheduler, every number of threads", "that a call returns at all is a property of executions without end; a test sees finite executions only and cannot tell a late return from none",
  [I + "detail/condition_variables/condition_variable_any_generic.hpp", I + "detail/condition_variables/basic_condition_variable_windows.hpp",
   I + "detail/condition_variables/condition_variable_posix.hpp"])
p("C116", "waiting for a one-time initialisation ends",
  "In every execution without end in which the scheduler does not forget a thread, every call that may have to wait for an initialisation by another thread comes to an end: get_waitable_timer proceeds or throws, init_tss_once goes on to the manager, get_event of the Windows mutex returns an event or throws. An initialisation that begins is completed or fails.",
  "every execution without end under a weakly fair scheduler, every number of threads and modules, every choice of failing OS calls", "the waiting loops spin without bound; that they are left is a property of executions without end",
  [I + "detail/waitable_timer.hpp", "src/tss_windows.cpp", I + "detail/mutexes/basic_mutex_windows.hpp"])

p("C117", "a timed wait of a condition variable ends without a notification",
  "A wait with a time limit on a condition variable (condition_variable_any with a time point of the system's clock, the POSIX condition_variable with such a time point and with or without a predicate, and every timed wait of the Windows condition variable) ends: it returns (or, as documented, throws or ends the process) although no thread ever notifies it, although its predicate never becomes true, and although it is woken too early any number of times.",
  "Every execution without end with any number of threads, in which a thread that can take its next step again and again is not passed over for ever, the user's lock is free again and again, and a call that sleeps again and again with a time limit eventually times out.",
  "A test observes one wait that times out; that no interleaving of early wake-ups, of notifications meant for others, or of contention on the lock makes a timed wait run for ever is a statement about executions without end.",
  [I + "detail/condition_variables/condition_variable_any_generic.hpp", I + "detail/condition_variables/condition_variable_posix.hpp", I + "detail/condition_variables/condition_variable_windows.hpp", I + "detail/condition_variables/basic_condition_variable_windows.hpp"])

p("C118", "timed waits of events, semaphores and the emulated timed mutex end",
  "A wait or lock with a time limit comes to an end although the object never becomes ready, and although other threads are faster again and again: the emulations of auto_reset_event, manual_reset_event and semaphore, timed_mutex without pthread_mutex_timedlock, auto_reset_event over a semaphore and manual_reset_event over a futex.",
  "Every execution without end with any number of threads, in which the scheduler does not pass over a thread for ever and a call that is in its sleep again and again learns that its time limit has passed.",
  "A test observes one call that times out; that early wake-ups, posts taken by others, sets followed by resets and contention cannot keep a timed call going for ever is a statement about executions without end.",
  [I + "detail/events/auto_reset_event_emulation.hpp", I + "detail/events/manual_reset_event_emulation.hpp", I + "detail/semaphore/semaphore_emulation.hpp", I + "detail/mutexes/timed_mutex_posix.hpp",
   I + "detail/events/auto_reset_event_semaphore.hpp", I + "detail/events/manual_reset_event_futex.hpp"])

p("C119", "timed calls that retry compare-exchanges end",
  "A wait with a time limit on the auto_reset_event over a futex, and a lock with a time limit of the Windows timed_mutex, return or throw: after the time limit has passed the call does not go on for ever, whatever other threads do.",
  "Every execution without end with any number of threads, in which no thread is forgotten, loads read the newest value, compare-exchanges do not fail without a reason and time passes.",
  "That the loops of compare-exchanges in on_wait_timed_out, mark_waiting_and_try_lock and clear_waiting_and_try_lock are left is a property of executions without end; the interleavings that keep them going have no bound.",
  [I + "detail/events/auto_reset_event_futex.hpp", I + "detail/mutexes/timed_mutex_windows.hpp", I + "detail/mutexes/basic_mutex_windows.hpp"])

p("C120", "a wait for a time point of a user's clock ends once the clock reaches it",
  "A wait of condition_variable_any or of the POSIX condition_variable for a time point of a clock of the user (the loop that reads the clock, sleeps for the difference and reads the clock again) ends, although no thread notifies it, although its predicate never becomes true and although the clock turns out to be behind after any number of sleeps, provided that the clock reaches the time point; if the clock never does, the wait can go on for ever.",
  "Every execution without end with any number of threads, in which a thread that can take its next step again and again is not passed over for ever, the user's lock is free again and again, sleeps end after their time, and one of infinitely many readings of the clock is not before the deadline.",
  "Clocks that run at another speed, are stopped or moved back give unboundedly many rounds of the loop; a test tries a few of them.",
  [I + "detail/condition_variables/condition_variable_any_generic.hpp", I + "detail/condition_variables/condition_variable_posix.hpp"])

p("C121", "a lock object whose destructor cannot unlock does not lose the mutex silently",
  "If the unlocking function of the mutex throws in the destructor of unique_lock, upgrade_lock or shared_lock (or of the temporary in an assignment from another kind of lock), a program compiled as C++11 or later is terminated, and for no other reason; as long as it runs the outstanding ownerships of each mutex are exactly those reported by live lock objects. Before C++11 the exception leaves the destructor, and the outstanding ownerships are those of live objects plus one for each such exception.",
  "Every sequence of calls of members of any number of lock objects of the three kinds on any number of mutexes, with every answer of the mutexes, also exceptions in explicit calls and in destructors.",
  "Mutexes whose unlock throws are not among those a test uses; the accounting is over histories of any length.",
  [I + "locks/unique_lock.hpp", I + "locks/upgrade_lock.hpp", I + "locks/shared_lock.hpp"])

p("C122", "guards stay correct when a mutex cannot be unlocked",
  "If the unlocking function called by the destructor of lock_guard, shared_lock_guard or unique_lock, or by the constructor of unlock_guard, throws, a program compiled as C++11 or later is terminated at that point: until then it behaves as if no unlocking function threw, and no part of it runs afterwards. So the guarantees of the guards (the state of the mutex inside, balanced locking when a block is left by any way) hold whichever unlocking functions throw.",
  "Every program made of nested and sequential guards of the four kinds, exceptions and handlers, of any size, on any number of mutexes, with any choice of lock and unlock functions that throw.",
  "Programs are unbounded in size and nesting; tests do not use mutexes whose unlock throws.",
  [I + "locks/lock_guard.hpp", I + "locks/shared_lock_guard.hpp", I + "locks/unlock_guard.hpp", I + "locks/unique_lock.hpp"])

out = os.path.join(os.path.dirname(os.path.dirname(os.path.abspath(__file__))), "properties.jsonl")
with open(out, "w") as f:
    for x in P:
        f.write(json.dumps(x, ensure_ascii=False) + "\n")
print(len(P))
