{"id": "C01", "title": "spin_mutex: mutual exclusion", "statement": "At no point of any execution do two threads both sit between a successful lock()/try_lock() and the matching unlock() of the same spin_mutex.", "quantifier": "every number of threads, every sequence of lock/try_lock/unlock calls in which unlock is only called by the owner, every interleaving, every value the relaxed spinning loads may return", "why_tests_cant": "a test observes a handful of schedules; the claim ranges over every interleaving of an unbounded number of calls", "anchors": ["include/boost/sync/detail/mutexes/spin_mutex.hpp: spin_mutex::lock, try_lock, unlock (both the atomic<bool> and the atomic_flag variant)"]}
{"id": "C02", "title": "spin_mutex: critical sections are ordered by happens-before", "statement": "Everything a thread did before it released the mutex (its own earlier critical sections and all those it had itself observed) is visible to every thread that acquires the mutex later.", "quantifier": "every execution of any number of threads under the C++11 release/acquire rules for the mutex word", "why_tests_cant": "missing acquire/release is invisible on x86 and shows only on weakly ordered hardware with unlucky timing", "anchors": ["include/boost/sync/detail/mutexes/spin_mutex.hpp: memory orders of exchange/test_and_set, store/clear"]}
{"id": "C03", "title": "spin_mutex: try_lock is exact and failure leaves no trace", "statement": "try_lock() returns true exactly when the mutex is free at the instant of its atomic operation; when it returns false the mutex remains held by the same owner, and when every owner has unlocked, the next lock attempt succeeds.", "quantifier": "every reachable state of every execution of any number of threads", "why_tests_cant": "a test observes a handful of schedules; the claim ranges over every interleaving of an unbounded number of calls", "anchors": ["include/boost/sync/detail/mutexes/spin_mutex.hpp: spin_mutex::try_lock"]}
{"id": "C04", "title": "shared_spin_mutex: readers/writer exclusion", "statement": "While a thread holds exclusive ownership no other thread holds exclusive or shared ownership.", "quantifier": "every number of threads, every sequence of lock/try_lock/unlock/lock_shared/try_lock_shared/unlock_shared calls respecting ownership, every interleaving, every value the relaxed loads may return", "why_tests_cant": "a test observes a handful of schedules; the claim ranges over every interleaving of an unbounded number of calls", "anchors": ["include/boost/sync/detail/mutexes/shared_spin_mutex.hpp: shared_spin_mutex (all members)"]}
{"id": "C05", "title": "shared_spin_mutex: the word is free exactly when nobody owns the mutex", "statement": "The number of shared owners is never miscounted: once all owners released, an exclusive attempt not disturbed by others succeeds, and while anybody owns the mutex an exclusive attempt fails.", "quantifier": "every reachable state of every execution of any number of threads", "why_tests_cant": "a test observes a handful of schedules; the claim ranges over every interleaving of an unbounded number of calls", "anchors": ["include/boost/sync/detail/mutexes/shared_spin_mutex.hpp: lock, try_lock, unlock, unlock_shared"]}
{"id": "C06", "title": "shared_spin_mutex: reader-count capacity", "statement": "No number of simultaneous readers corrupts the mutex: at most 2^31 threads own it in shared mode at once, and reaching that limit only makes further shared attempts wait or fail.", "quantifier": "every number of threads, every interleaving; the limit is sharp (over all 2^32 words)", "why_tests_cant": "needs 2^31 threads", "anchors": ["include/boost/sync/detail/mutexes/shared_spin_mutex.hpp: lock_shared, try_lock_shared (next = current + 1u)"]}
{"id": "C07", "title": "shared_spin_mutex: happens-before between critical sections", "statement": "An exclusive owner sees everything done in every earlier shared or exclusive critical section; a shared owner sees everything done in every earlier exclusive critical section.", "quantifier": "every execution of any number of threads under the C++11 release/acquire rules, including release sequences through the readers' read-modify-writes", "why_tests_cant": "missing ordering is invisible on x86", "anchors": ["include/boost/sync/detail/mutexes/shared_spin_mutex.hpp: memory orders"]}
{"id": "C08", "title": "shared_spin_mutex: try_lock_shared succeeds whenever there is no exclusive owner", "statement": "If the mutex is not exclusively locked, try_lock_shared() acquires shared ownership and returns true (as its documentation says).", "quantifier": "every reachable state and every interleaving of the call with other threads' calls", "why_tests_cant": "requires another reader to arrive between the load and the compare-exchange", "anchors": ["include/boost/sync/detail/mutexes/shared_spin_mutex.hpp: try_lock_shared", "include/boost/sync/mutexes/shared_spin_mutex.hpp"]}
{"id": "C09", "title": "Windows mutex/timed_mutex: mutual exclusion", "statement": "Two threads never own the mutex at once, whether acquired by lock, try_lock, a timed lock or after sleeping on the event.", "quantifier": "every number of threads below 2^30, every interleaving of lock/try_lock/timed_lock/unlock including timeouts and failing waits", "why_tests_cant": "a test observes a handful of schedules; the claim ranges over every interleaving of an unbounded number of calls", "anchors": ["include/boost/sync/detail/mutexes/basic_mutex_windows.hpp: basic_mutex", "include/boost/sync/detail/mutexes/timed_mutex_windows.hpp: timed_mutex"]}
{"id": "C10", "title": "Windows mutex/timed_mutex: no lost wake-up", "statement": "There is no reachable state in which the mutex is free, threads are blocked inside lock(), and no thread can take a step: whenever the mutex is unlocked and somebody sleeps, the event is signalled or some thread that is not asleep is about to signal or consume it.", "quantifier": "every reachable state of every execution with fewer than 2^30 threads", "why_tests_cant": "a test observes a handful of schedules; the claim ranges over every interleaving of an unbounded number of calls", "anchors": ["include/boost/sync/detail/mutexes/basic_mutex_windows.hpp: unlock, mark_waiting_and_try_lock, clear_waiting_and_try_lock, priv_lock"]}
{"id": "C11", "title": "Windows mutex: event flag and event object agree", "statement": "The internal auto-reset event is never signalled twice without an intervening consumption, and at most one thread at a time is between being released by the event and updating the word.", "quantifier": "every reachable state of every execution with fewer than 2^30 threads", "why_tests_cant": "a test observes a handful of schedules; the claim ranges over every interleaving of an unbounded number of calls", "anchors": ["include/boost/sync/detail/mutexes/basic_mutex_windows.hpp: unlock, clear_waiting_and_try_lock"]}
{"id": "C12", "title": "Windows mutex: failed or throwing lock attempts leave no trace", "statement": "A timed lock that returns false, or a lock that throws because a wait or event creation failed, leaves the count of blocked threads as if the call had not happened and does not own the mutex.", "quantifier": "every reachable state and every failure point of every lock call", "why_tests_cant": "fault injection inside the OS at every point of every schedule", "anchors": ["include/boost/sync/detail/mutexes/basic_mutex_windows.hpp: priv_lock", "include/boost/sync/detail/mutexes/timed_mutex_windows.hpp: priv_timed_lock"]}
{"id": "C13", "title": "Windows mutex: critical sections are ordered by happens-before", "statement": "Everything done in a critical section is visible to the next owner.", "quantifier": "every execution of any number of threads under the C++11 memory model", "why_tests_cant": "the contended path acquires with a relaxed compare-exchange; x86 hides it", "anchors": ["include/boost/sync/detail/mutexes/basic_mutex_windows.hpp: mark_waiting_and_try_lock, clear_waiting_and_try_lock"]}
{"id": "C14", "title": "POSIX timed_mutex emulation: mutual exclusion", "statement": "With the condition-variable based emulation two threads never own the timed_mutex at once.", "quantifier": "every number of threads, every interleaving, spurious wake-ups and timeouts at any point", "why_tests_cant": "a test observes a handful of schedules; the claim ranges over every interleaving of an unbounded number of calls", "anchors": ["include/boost/sync/detail/mutexes/timed_mutex_posix.hpp: timed_mutex (emulation branch)"]}
{"id": "C15", "title": "POSIX timed_mutex emulation: no lost wake-up", "statement": "There is no reachable state in which the timed_mutex is free, threads are blocked in it and no thread can take a step.", "quantifier": "every reachable state of every execution of any number of threads", "why_tests_cant": "a test observes a handful of schedules; the claim ranges over every interleaving of an unbounded number of calls", "anchors": ["include/boost/sync/detail/mutexes/timed_mutex_posix.hpp: lock, unlock, priv_timed_lock"]}
{"id": "C16", "title": "POSIX timed_mutex emulation: a timed lock fails only while the mutex is owned", "statement": "timed_lock/try_lock_for/try_lock_until returns false only if, after its deadline passed, it observed the mutex to be owned by another thread.", "quantifier": "every reachable state of every execution of any number of threads", "why_tests_cant": "a test observes a handful of schedules; the claim ranges over every interleaving of an unbounded number of calls", "anchors": ["include/boost/sync/detail/mutexes/timed_mutex_posix.hpp: priv_timed_lock"]}
{"id": "C17", "title": "auto_reset_event (futex): every post releases at most one waiter", "statement": "In every execution the number of completed successful waits (wait, try_wait, timed waits) never exceeds the number of completed or running posts.", "quantifier": "every number of threads up to 1023, every interleaving of post/wait/try_wait/timed wait including spurious futex wake-ups, signals and timeouts", "why_tests_cant": "a test observes a handful of schedules; the claim ranges over every interleaving of an unbounded number of calls", "anchors": ["include/boost/sync/detail/events/auto_reset_event_futex.hpp: auto_reset_event"]}
{"id": "C18", "title": "auto_reset_event (futex): no lost wake-up", "statement": "There is no reachable state in which the event is signalled, a thread is asleep waiting for it, and no thread can take a step. In particular if post() has returned and its signal was not consumed, some waiter is awake.", "quantifier": "every reachable state of every execution of up to 1023 threads", "why_tests_cant": "a test observes a handful of schedules; the claim ranges over every interleaving of an unbounded number of calls", "anchors": ["include/boost/sync/detail/events/auto_reset_event_futex.hpp: post, wait, priv_timed_wait, on_wait_timed_out"]}
{"id": "C19", "title": "auto_reset_event (futex): an event nobody waits for remembers at most one post", "statement": "Whenever no thread is inside a blocking wait, at most one successful wait is possible before the next post, however many posts were made.", "quantifier": "every reachable state of every execution of up to 1023 threads", "why_tests_cant": "a test observes a handful of schedules; the claim ranges over every interleaving of an unbounded number of calls", "anchors": ["include/boost/sync/detail/events/auto_reset_event_futex.hpp: post"]}
{"id": "C20", "title": "auto_reset_event (futex): a timed wait that fails consumes nothing", "statement": "A timed wait that returns false changes neither the signalled state nor the count of blocked threads; if a post is available when the timeout strikes, the wait returns true and consumes it.", "quantifier": "every reachable state of every execution of up to 1023 threads", "why_tests_cant": "a test observes a handful of schedules; the claim ranges over every interleaving of an unbounded number of calls", "anchors": ["include/boost/sync/detail/events/auto_reset_event_futex.hpp: on_wait_timed_out, priv_timed_wait"]}
{"id": "C21", "title": "auto_reset_event (futex): posts are never lost whatever the number of waiters", "statement": "If k threads are blocked and k posts are made, all k threads get released.", "quantifier": "every number of blocked threads", "why_tests_cant": "requires more than a thousand threads blocked at once and as many posts before any of them runs", "anchors": ["include/boost/sync/detail/events/auto_reset_event_futex.hpp: post (10-bit post counter)"]}
{"id": "C22", "title": "auto_reset_event (futex): post publishes the poster's writes", "statement": "Everything a thread did before post() is visible to the thread whose wait is released by the event afterwards.", "quantifier": "every execution under the C++11 memory model, whether or not the event was already signalled when posted", "why_tests_cant": "the already-signalled path performs no store, which only matters on weakly ordered hardware or under compiler reordering", "anchors": ["include/boost/sync/detail/events/auto_reset_event_futex.hpp: post (fence-only path)", "include/boost/sync/events/auto_reset_event.hpp"]}
{"id": "C23", "title": "auto_reset_event (futex): linearizable as a binary event", "statement": "Two completed posts with no successful wait between them allow at most two successful waits only if one of them was already blocked; every history of the event is explainable by a single set/unset flag.", "quantifier": "all histories of any number of threads", "why_tests_cant": "requires enumerating all histories", "anchors": ["include/boost/sync/detail/events/auto_reset_event_futex.hpp: post, try_wait"]}
{"id": "C24", "title": "auto_reset_event (semaphore based): every post releases at most one waiter", "statement": "The number of completed successful waits never exceeds the number of posts.", "quantifier": "every number of threads, every interleaving of post/wait/try_wait/timed_wait", "why_tests_cant": "a test observes a handful of schedules; the claim ranges over every interleaving of an unbounded number of calls", "anchors": ["include/boost/sync/detail/events/auto_reset_event_semaphore.hpp: auto_reset_event"]}
{"id": "C25", "title": "auto_reset_event (semaphore based): no lost wake-up", "statement": "There is no reachable state in which a thread is blocked, a post has been made that nobody consumed, and no thread can take a step.", "quantifier": "every reachable state of every execution", "why_tests_cant": "a test observes a handful of schedules; the claim ranges over every interleaving of an unbounded number of calls", "anchors": ["include/boost/sync/detail/events/auto_reset_event_semaphore.hpp: post, wait"]}
{"id": "C26", "title": "auto_reset_event (semaphore based): an event nobody waits for remembers at most one post", "statement": "Whenever no call is in progress, at most one wait can succeed before the next post.", "quantifier": "every reachable state of every execution, including executions in which try_wait or timed_wait fail", "why_tests_cant": "needs two posts inside the two-instruction window of a failing try_wait", "anchors": ["include/boost/sync/detail/events/auto_reset_event_semaphore.hpp: try_wait, timed_wait"]}
{"id": "C27", "title": "auto_reset_event (emulation): behaves as a binary event", "statement": "post/wait/try_wait/timed_wait of the mutex+condition-variable emulation are a refinement of an atomic flag: each successful wait atomically takes the flag set by a post, a failed one leaves it unchanged, and nobody sleeps while the flag is set unless a wake-up is on its way.", "quantifier": "every execution of any number of threads, with spurious wake-ups and timeouts", "why_tests_cant": "a test observes a handful of schedules; the claim ranges over every interleaving of an unbounded number of calls", "anchors": ["include/boost/sync/detail/events/auto_reset_event_emulation.hpp: auto_reset_event"]}
{"id": "C28", "title": "manual_reset_event (emulation): behaves as a flag; set releases all blocked threads", "statement": "wait/try_wait/timed_wait return success only if the flag was set at an instant during the call, and while the flag is set no thread stays blocked without a wake-up on its way.", "quantifier": "every execution of any number of threads, with spurious wake-ups and timeouts", "why_tests_cant": "a test observes a handful of schedules; the claim ranges over every interleaving of an unbounded number of calls", "anchors": ["include/boost/sync/detail/events/manual_reset_event_emulation.hpp: manual_reset_event"]}
{"id": "C29", "title": "manual_reset_event (futex): no lost wake-up", "statement": "There is no reachable state in which the event is set, a thread is asleep in wait() and no thread can take a step; once set() returned and nobody resets, no thread is asleep.", "quantifier": "every reachable state of every execution of fewer than 2^31 threads", "why_tests_cant": "a test observes a handful of schedules; the claim ranges over every interleaving of an unbounded number of calls", "anchors": ["include/boost/sync/detail/events/manual_reset_event_futex.hpp: set, wait, priv_timed_wait"]}
{"id": "C30", "title": "manual_reset_event (futex): success implies the event was set", "statement": "wait() returning, or try_wait/timed waits returning true, implies the event was set at some instant during the call; set and reset never disturb the count of waiting threads.", "quantifier": "every execution of fewer than 2^31 threads", "why_tests_cant": "a test observes a handful of schedules; the claim ranges over every interleaving of an unbounded number of calls", "anchors": ["include/boost/sync/detail/events/manual_reset_event_futex.hpp: manual_reset_event"]}
{"id": "C31", "title": "manual_reset_event (futex): set publishes, successful wait observes", "statement": "Everything done before a set() is visible after a wait that succeeded because of it or of a later set().", "quantifier": "every execution under the C++11 memory model", "why_tests_cant": "x86 hides missing ordering", "anchors": ["include/boost/sync/detail/events/manual_reset_event_futex.hpp: set (fetch_or release), wait/try_wait (acquire)"]}
{"id": "C32", "title": "semaphore: permits are conserved", "statement": "initial count + posts - successful waits = available permits, and it never becomes negative; failing waits (timeout, interruption, try_wait on zero) consume nothing; a post refused with overflow_error adds nothing.", "quantifier": "every history of post/wait/try_wait/timed_wait calls of any number of threads and every OS result (EINTR, ETIMEDOUT, EAGAIN, EOVERFLOW)", "why_tests_cant": "unbounded histories and OS failures at every point", "anchors": ["include/boost/sync/detail/semaphore/semaphore_posix.hpp", "include/boost/sync/detail/semaphore/semaphore_emulation.hpp", "include/boost/sync/detail/semaphore/semaphore_windows.hpp", "include/boost/sync/detail/semaphore/semaphore_dispatch.hpp", "include/boost/sync/detail/semaphore/basic_semaphore_mach.hpp"]}
{"id": "C33", "title": "semaphore (emulation): no lost wake-up", "statement": "There is no reachable state in which a permit is available, a thread is blocked in wait() and no thread can take a step.", "quantifier": "every reachable state of every execution of any number of threads, with spurious wake-ups and timeouts", "why_tests_cant": "a test observes a handful of schedules; the claim ranges over every interleaving of an unbounded number of calls", "anchors": ["include/boost/sync/detail/semaphore/semaphore_emulation.hpp: post, wait, timed_wait"]}
{"id": "C34", "title": "Windows condition variable: waiter accounting", "statement": "The number of threads the condition variable believes to be blocked and not yet notified equals the number of threads that really are, in every state between critical sections of its internal mutex.", "quantifier": "every execution of any number of threads calling wait/timed wait/notify_one/notify_all, with timeouts and failing waits at any point", "why_tests_cant": "a test observes a handful of schedules; the claim ranges over every interleaving of an unbounded number of calls", "anchors": ["include/boost/sync/detail/condition_variables/basic_condition_variable_windows.hpp: basic_condition_variable"]}
{"id": "C35", "title": "Windows condition variable: no lost notification", "statement": "A notification issued while a thread is blocked is delivered: there is no reachable state with an undelivered notification in which all threads it may go to are asleep and none can take a step.", "quantifier": "every reachable state of every execution of any number of threads", "why_tests_cant": "a test observes a handful of schedules; the claim ranges over every interleaving of an unbounded number of calls", "anchors": ["include/boost/sync/detail/condition_variables/basic_condition_variable_windows.hpp: wake_waiters, priv_wait, priv_timed_wait"]}
{"id": "C36", "title": "Windows condition variable: notifications cannot be stolen by later waiters", "statement": "A thread that starts waiting after a notify call completed its bookkeeping cannot consume that notification in place of a thread already waiting.", "quantifier": "every execution of any number of threads", "why_tests_cant": "requires the rare schedule described in the source comment", "anchors": ["include/boost/sync/detail/condition_variables/basic_condition_variable_windows.hpp: initiate_wait, waiter_state"]}
{"id": "C37", "title": "Windows condition variable: a wait returns no_timeout only if notified, and notify_all releases everybody", "statement": "Each return with no_timeout is matched by exactly one notification unit; notify_one issues exactly one unit when somebody is blocked and none otherwise; notify_all issues exactly as many units as there are blocked threads. The notify loop terminates.", "quantifier": "every execution of any number of threads, every ring configuration", "why_tests_cant": "unbounded ring sizes and histories", "anchors": ["include/boost/sync/detail/condition_variables/basic_condition_variable_windows.hpp: notify_one, notify_all, wake_waiters"]}
{"id": "C38", "title": "Windows condition variable: every wait returns or throws with the user lock held", "statement": "Whatever fails inside (semaphore creation, timer, OS wait), the caller's lock is held again when the call returns or throws, and it is released at most once during the call; a wait that throws leaves the bookkeeping consistent.", "quantifier": "every failure point of wait and the timed waits", "why_tests_cant": "fault injection at every point", "anchors": ["include/boost/sync/detail/condition_variables/basic_condition_variable_windows.hpp: relocker, wait, timed_wait, initiate_wait"]}
{"id": "C39", "title": "condition_variable_any: no lost notification", "statement": "A notify issued after a thread's wait released the user's lock wakes that thread (or another blocked one): there is no window between releasing the user lock and blocking in which a notification is lost.", "quantifier": "every execution of any number of threads", "why_tests_cant": "a test observes a handful of schedules; the claim ranges over every interleaving of an unbounded number of calls", "anchors": ["include/boost/sync/detail/condition_variables/condition_variable_any_generic.hpp: wait, notify_one, notify_all"]}
{"id": "C40", "title": "condition_variable_any: wait returns with the user lock held and never holds its internal mutex while acquiring it", "statement": "On every exit path (normal or exceptional) the user's lock is held exactly as on entry and the internal mutex is released before the user's lock is re-acquired, so no cyclic wait between the two exists.", "quantifier": "every execution of any number of threads, every throw point", "why_tests_cant": "a test observes a handful of schedules; the claim ranges over every interleaving of an unbounded number of calls", "anchors": ["include/boost/sync/detail/condition_variables/condition_variable_any_generic.hpp: relocker, wait, timed_wait, wait_for, wait_until"]}
{"id": "C41", "title": "condition variables: predicate overloads", "statement": "wait(lock, pred) returns only when pred() is true; the timed overloads return exactly the value of pred() evaluated last, never true when that was false.", "quantifier": "every predicate behaviour, every sequence of wake-ups and timeouts", "why_tests_cant": "unbounded sequences of spurious wake-ups", "anchors": ["include/boost/sync/detail/condition_variables/condition_variable_posix.hpp", "include/boost/sync/detail/condition_variables/condition_variable_windows.hpp", "include/boost/sync/detail/condition_variables/condition_variable_any_generic.hpp", "include/boost/sync/detail/condition_variables/condition_variable_any_windows.hpp"]}
{"id": "C42", "title": "condition variables: relative predicate waits are bounded by one timeout", "statement": "timed_wait(lock, duration, pred) and wait_for(lock, duration, pred) behave as if an absolute deadline now()+duration were computed once: no matter how many wake-ups happen, no wait starts after that deadline.", "quantifier": "every predicate behaviour, every sequence of wake-up times", "why_tests_cant": "unbounded sequences of spurious wake-ups", "anchors": ["include/boost/sync/detail/condition_variables/condition_variable_posix.hpp: timed_wait, wait_for", "include/boost/sync/detail/condition_variables/condition_variable_any_generic.hpp: timed_wait, wait_for"]}
{"id": "C43", "title": "POSIX time arithmetic: adding a duration is exact and normalised", "statement": "For every normalised time point and duration whose exact sum is representable, time_point + duration denotes exactly that sum with 0 <= nanoseconds < 10^9.", "quantifier": "all 64-bit durations and time points, including negative durations", "why_tests_cant": "2^128 inputs", "anchors": ["include/boost/sync/detail/time_units.hpp: system_time_point::operator+=, operator-=, system_time_point(system_duration)"]}
{"id": "C44", "title": "POSIX time arithmetic: difference and addition are inverse", "statement": "For all time points whose distance fits in 64 bits, b + (a - b) denotes a, and (a - b) is the exact signed number of nanoseconds.", "quantifier": "all time points", "why_tests_cant": "2^256 inputs", "anchors": ["include/boost/sync/detail/time_units.hpp: operator-, operator+"]}
{"id": "C45", "title": "a negative or zero relative timeout does not block", "statement": "try_lock_for/wait_for/timed waits with a non-positive duration behave as an attempt with an already expired deadline.", "quantifier": "all non-positive durations at all clock readings", "why_tests_cant": "2^64 durations times all clock readings", "anchors": ["include/boost/sync/detail/time_units.hpp: operator+=", "include/boost/sync/detail/mutexes/timed_mutex_posix.hpp: priv_timed_lock", "include/boost/sync/detail/condition_variables/condition_variable_posix.hpp: priv_timed_wait", "include/boost/sync/detail/semaphore/semaphore_posix.hpp: priv_timed_wait"]}
{"id": "C46", "title": "Windows time arithmetic", "statement": "Time points are exact modulo 2^64 in 100 ns units under adding durations in milliseconds whenever the product fits; the difference of two time points truncates toward zero to milliseconds.", "quantifier": "all 64-bit inputs", "why_tests_cant": "2^128 inputs", "anchors": ["include/boost/sync/detail/time_units.hpp: Windows system_time_point"]}
{"id": "C47", "title": "unit conversion of user durations", "statement": "Converting a chrono or date_time duration to the internal unit is monotone, exact when the internal unit is finer, and truncates toward zero by less than one unit otherwise.", "quantifier": "all tick counts and all tick periods", "why_tests_cant": "unbounded tick counts and periods", "anchors": ["include/boost/sync/support/std_chrono.hpp: to_sync_unit", "include/boost/sync/support/boost_chrono.hpp", "include/boost/sync/support/boost_date_time.hpp: to_sync_unit", "include/boost/sync/support/posix_time.hpp"]}
{"id": "C48", "title": "timed waits against a user clock: false only after the deadline", "statement": "timed lock/wait against a non-system clock reports a timeout only if the user's clock was read at or past the deadline; success is reported only if the underlying primitive reported success.", "quantifier": "every clock behaviour (including clocks that jump backwards or run at another rate) and every result sequence of the underlying primitive", "why_tests_cant": "unbounded clock/OS behaviours", "anchors": ["include/boost/sync/detail/mutexes/timed_mutex_posix.hpp: priv_timed_lock(chrono)", "include/boost/sync/detail/events/auto_reset_event_futex.hpp: priv_timed_wait(chrono)", "include/boost/sync/detail/semaphore/semaphore_posix.hpp", "include/boost/sync/detail/condition_variables/condition_variable_posix.hpp"]}
{"id": "C49", "title": "timed waits against a user clock: an expired deadline still tries once", "statement": "A timed wait whose deadline has already passed still succeeds if the resource is available.", "quantifier": "every primitive and every clock reading", "why_tests_cant": "enumerating primitives, clock values and availability", "anchors": ["include/boost/sync/detail/semaphore/basic_semaphore_mach.hpp: timed_wait", "include/boost/sync/detail/semaphore/semaphore_dispatch.hpp", "include/boost/sync/detail/events/manual_reset_event_futex.hpp", "include/boost/sync/detail/mutexes/timed_mutex_windows.hpp"]}
{"id": "C50", "title": "Windows timed waits: chunked waiting adds up exactly", "statement": "A wait longer than the OS maximum is split into chunks that add up to exactly the requested time; no chunk is INFINITE; a non-positive time performs no wait; the loop terminates.", "quantifier": "all 64-bit durations", "why_tests_cant": "2^64 durations, waits of up to 292 million years", "anchors": ["include/boost/sync/detail/events/basic_event_windows.hpp: timed_wait", "include/boost/sync/detail/semaphore/semaphore_windows.hpp: priv_timed_wait", "include/boost/sync/detail/mutexes/timed_mutex_windows.hpp: priv_timed_lock"]}
{"id": "C51", "title": "relative timed waits are bounded by one timeout in spite of wake-ups", "statement": "However often a relative timed wait is woken without success (signals, spurious wake-ups, another thread taking the post), the total time blocked never exceeds the requested duration.", "quantifier": "every sequence of wake-up instants", "why_tests_cant": "unbounded wake-up sequences", "anchors": ["include/boost/sync/detail/events/auto_reset_event_futex.hpp: priv_timed_wait(system_duration)", "include/boost/sync/detail/events/manual_reset_event_futex.hpp: priv_timed_wait(system_duration)", "include/boost/sync/detail/events/auto_reset_event_emulation.hpp: timed_wait", "include/boost/sync/detail/mutexes/timed_mutex_windows.hpp"]}
{"id": "C52", "title": "futex timeout splitting", "statement": "The relative timeout given to the kernel always has 0 <= tv_nsec < 10^9 and equals the requested nanoseconds.", "quantifier": "all positive 64-bit durations", "why_tests_cant": "2^63 inputs", "anchors": ["include/boost/sync/detail/futex.hpp: futex_timedwait"]}
{"id": "C53", "title": "unique_lock: ownership bookkeeping matches the mutex over every history", "statement": "Over every history of constructions, lock/try_lock/timed variants, unlock, release, moves, swaps and destructions of any number of unique_lock objects, a lock object reports ownership only for a mutex it really acquired, every acquisition is released exactly once (by unlock, by destruction or handed out by release()), and a mutex is never unlocked by a lock that does not own it.", "quantifier": "every finite history over any number of lock objects and mutexes, every try result", "why_tests_cant": "unbounded histories", "anchors": ["include/boost/sync/locks/unique_lock.hpp: unique_lock"]}
{"id": "C54", "title": "lock wrappers: misuse throws and changes nothing", "statement": "lock/try_lock/timed_lock on a lock without mutex or already owning, and unlock on a non-owning lock, throw the documented error and leave the lock object and the mutex untouched; if the mutex operation throws, the lock object is unchanged.", "quantifier": "every state of the wrapper and every outcome of the mutex operation", "why_tests_cant": "enumerates all states, outcomes and operations for three wrappers", "anchors": ["include/boost/sync/locks/unique_lock.hpp", "include/boost/sync/locks/shared_lock.hpp", "include/boost/sync/locks/upgrade_lock.hpp"]}
{"id": "C55", "title": "shared_lock and upgrade_lock: ownership bookkeeping over every history", "statement": "Same as C53 for shared_lock and upgrade_lock: shared/upgrade acquisitions and releases on the mutex are balanced, never negative, and destruction releases exactly what is owned.", "quantifier": "every finite history over any number of lock objects and mutexes", "why_tests_cant": "unbounded histories", "anchors": ["include/boost/sync/locks/shared_lock.hpp: shared_lock", "include/boost/sync/locks/upgrade_lock.hpp: upgrade_lock"]}
{"id": "C56", "title": "lock conversions preserve ownership", "statement": "Converting between unique, upgrade and shared locks keeps exactly one ownership of the converted kind, leaves the source without ownership, and a failing (try/timed) upgrade leaves the source lock as it was.", "quantifier": "every state of the source and every outcome of the mutex operation", "why_tests_cant": "all conversions times all states", "anchors": ["include/boost/sync/locks/unique_lock.hpp: converting constructors", "include/boost/sync/locks/shared_lock.hpp: converting constructors and assignments", "include/boost/sync/locks/upgrade_lock.hpp: converting constructors"]}
{"id": "C57", "title": "scoped guards are balanced", "statement": "Code run under arbitrarily nested lock_guard/shared_lock_guard/unlock_guard scopes leaves the mutex exactly as it found it on every exit, normal or exceptional, and inside each scope the mutex is in the state the guard promises.", "quantifier": "every nesting structure and every exit point", "why_tests_cant": "unbounded nesting", "anchors": ["include/boost/sync/locks/lock_guard.hpp", "include/boost/sync/locks/shared_lock_guard.hpp", "include/boost/sync/locks/unlock_guard.hpp"]}
{"id": "C58", "title": "thread_specific_ptr: a thread reads what it last wrote", "statement": "get() returns the value most recently set by the same thread through the same object, or null; operations of other threads or on other objects never change it.", "quantifier": "every history of set/get/new/delete over any number of threads and keys", "why_tests_cant": "unbounded histories", "anchors": ["src/tss_manager.hpp: get_value, set_value, new_key, delete_key", "src/tss_pthread.cpp", "src/tss_windows.cpp", "include/boost/sync/thread_specific/thread_specific_ptr.hpp"]}
{"id": "C59", "title": "thread_specific_ptr: keys of live objects are distinct and recycled keys start null in every thread", "statement": "No two live thread_specific_ptr objects share storage; a new object reads null in every running thread even if its key was used before.", "quantifier": "every history over any number of threads and objects in which objects are destroyed only while no owning thread is exiting", "why_tests_cant": "unbounded histories", "anchors": ["src/tss_manager.hpp: new_key, delete_key"]}
{"id": "C60", "title": "thread_specific_ptr: every value is cleaned up exactly once", "statement": "Each non-null value stored is passed to the object's cleanup exactly once: when replaced by reset, when its thread exits, or when the object is destroyed; a released value is never cleaned up. Nothing is leaked or freed twice.", "quantifier": "every history of reset/release/thread exit/destruction over any number of threads and objects", "why_tests_cant": "unbounded histories", "anchors": ["src/tss_manager.hpp: destroy_thread_context, delete_key", "include/boost/sync/thread_specific/thread_specific_ptr.hpp: reset, release, ~thread_specific_ptr"]}
{"id": "C61", "title": "thread_specific_ptr: destroying an object while a thread exits is safe", "statement": "If an object is destroyed (and another created) while some thread is running its exit cleanups, values are still cleaned up exactly once by the cleanup of the object they were stored in.", "quantifier": "every point of the exit sequence at which the object may be destroyed", "why_tests_cant": "needs a destruction in the middle of another object's cleanup", "anchors": ["src/tss_manager.hpp: destroy_thread_context, delete_key, new_key"]}
{"id": "C62", "title": "at_thread_exit: callbacks run exactly once in reverse order", "statement": "At thread exit each registered callback runs exactly once; callbacks registered before exit run in reverse order of registration; callbacks registered by callbacks run afterwards, again most recent first.", "quantifier": "every number of callbacks and every nesting of registrations from within callbacks", "why_tests_cant": "unbounded nesting", "anchors": ["src/tss_manager.hpp: destroy_thread_context, add_at_exit_entry", "include/boost/sync/thread_specific/at_thread_exit.hpp"]}
{"id": "C63", "title": "thread exit ordering", "statement": "All exit callbacks precede all thread-specific cleanups, which precede all notify_all_at_thread_exit notifications; notifications happen in registration order, each after unlocking its mutex, each exactly once.", "quantifier": "every context content and every behaviour of callbacks and cleanups", "why_tests_cant": "unbounded contents", "anchors": ["src/tss_manager.hpp: destroy_thread_context", "include/boost/sync/condition_variables/notify_all_at_thread_exit.hpp"]}
{"id": "C64", "title": "callbacks registered during thread-specific cleanup are not lost", "statement": "A callback registered with at_thread_exit by a cleanup function running at thread exit is still executed.", "quantifier": "every context content and every behaviour of cleanups", "why_tests_cant": "needs registration from within a cleanup", "anchors": ["src/tss_manager.hpp: destroy_thread_context", "src/tss_windows.cpp: on_thread_exit", "src/tss_pthread.cpp: tss_cleanup"]}
{"id": "C65", "title": "thread exit processing happens for every thread on every configuration", "statement": "Whatever configuration macros are chosen, a thread that registered a callback or stored a thread-specific value has its exit processing executed when it terminates.", "quantifier": "every supported configuration (compiler TLS or pthread keys)", "why_tests_cant": "tests run one configuration", "anchors": ["src/tss_pthread.cpp: init_tss, set_thread_context", "include/boost/sync/detail/config.hpp: BOOST_SYNC_DETAIL_TLS"]}
{"id": "C66", "title": "one-time initialisation (Windows)", "statement": "The TSS manager and the waitable-timer context are initialised exactly once; no caller proceeds before initialisation completed; in the timer case a failed initialisation lets a later caller retry.", "quantifier": "every number of threads, every interleaving, failure at any attempt", "why_tests_cant": "a test observes a handful of schedules; the claim ranges over every interleaving of an unbounded number of calls", "anchors": ["src/tss_windows.cpp: init_tss_once", "include/boost/sync/detail/waitable_timer.hpp: init"]}
{"id": "C67", "title": "waitable timer: process-unique semaphore name", "statement": "Distinct process ids yield distinct semaphore names, and the same process id always yields the same name.", "quantifier": "all 2^32 process ids", "why_tests_cant": "2^64 pairs", "anchors": ["include/boost/sync/detail/waitable_timer.hpp: sem_name encoding"]}
{"id": "C68", "title": "Windows mutex: lazily created event is unique", "statement": "All threads that ever obtain the event of a mutex obtain the same one, it is never replaced, and every other event created in the race is closed exactly once.", "quantifier": "every number of threads and every interleaving", "why_tests_cant": "a test observes a handful of schedules; the claim ranges over every interleaving of an unbounded number of calls", "anchors": ["include/boost/sync/detail/mutexes/basic_mutex_windows.hpp: get_event"]}
{"id": "C69", "title": "POSIX wrappers: interruption by signals is never reported", "statement": "mutex, condition variable and semaphore waits never return or throw because of EINTR; they retry until the OS gives a definite answer, and report exactly that answer.", "quantifier": "every finite number of interruptions before the answer", "why_tests_cant": "unbounded numbers of interruptions", "anchors": ["include/boost/sync/detail/pthread.hpp", "include/boost/sync/detail/semaphore/semaphore_posix.hpp: wait, priv_timed_wait", "include/boost/sync/detail/mutexes/mutex_posix.hpp", "include/boost/sync/detail/condition_variables/condition_variable_posix.hpp"]}
{"id": "C70", "title": "semaphore (dispatch): initial permits", "statement": "A semaphore constructed with initial count i lets exactly i waits through before the first post.", "quantifier": "all initial counts", "why_tests_cant": "2^32 counts", "anchors": ["include/boost/sync/detail/semaphore/semaphore_dispatch.hpp: semaphore(unsigned int)"]}
{"id": "C71", "title": "Mach semaphore: the whole timeout reaches the kernel", "statement": "The timeout given to the Mach kernel by a relative wait denotes exactly the requested number of nanoseconds.", "quantifier": "all non-negative 64-bit durations", "why_tests_cant": "2^63 inputs; the failing ones take more than a century", "anchors": ["include/boost/sync/detail/semaphore/basic_semaphore_mach.hpp: priv_timed_wait(system_duration)"]}
{"id": "C72", "title": "thread-specific storage: no data races inside the manager", "statement": "No two threads access the same memory of the TSS manager (list of contexts, table of keys, value tables of the threads) at the same time, one of them writing, unless both hold the manager's mutex.", "quantifier": "every number of threads and keys and every interleaving of get, set, create, delete and thread exit", "why_tests_cant": "a test observes a handful of schedules; the claim ranges over every interleaving of an unbounded number of calls", "anchors": ["src/tss_manager.hpp: new_key, delete_key, set_value, get_value, destroy_thread_context"]}
{"id": "C73", "title": "waitable timer: one TLS slot for all modules", "statement": "All modules of a process use the same TLS slot for their timers and no further slot stays allocated, unless an OS call fails; whatever fails, a slot in use is never freed and no slot is lost.", "quantifier": "every number of modules and threads, every interleaving, every combination of failing OS calls", "why_tests_cant": "a test observes a handful of schedules; the claim ranges over every interleaving of an unbounded number of calls", "anchors": ["include/boost/sync/detail/waitable_timer.hpp: init"]}
{"id": "C74", "title": "waitable timer: one timer per thread, released exactly once", "statement": "All calls by one thread obtain the same open timer; whatever a failed call or an ended thread obtained from the OS is released exactly once.", "quantifier": "every sequence of calls and every combination of failing OS calls", "why_tests_cant": "needs injected OS failures", "anchors": ["include/boost/sync/detail/waitable_timer.hpp: create_thread_local_context, ~thread_local_context, get_waitable_timer"]}
{"id": "C75", "title": "waitable timer: semaphore handles are released at exit", "statement": "The handlers registered for the exit of the process close every handle of the named semaphore that was opened.", "quantifier": "every number of modules and threads, every interleaving, every combination of failing OS calls", "why_tests_cant": "needs injected OS failures", "anchors": ["include/boost/sync/detail/waitable_timer.hpp: init, destroy"]}
{"id": "C76", "title": "emulations: interrupted waits lose no wake-up", "statement": "On platforms for which the workaround for interrupted pthread calls is compiled in (BOOST_SYNC_HAS_PTHREAD_EINTR_BUG), a thread does not stay blocked in an emulated event, semaphore or timed_mutex that is ready while no other thread can take a step.", "quantifier": "every number of threads, every interleaving, interruptions, timeouts, spurious wake-ups and failures at any point", "why_tests_cant": "a test observes a handful of schedules; the claim ranges over every interleaving of an unbounded number of calls", "anchors": ["include/boost/sync/detail/pthread.hpp: pthread_cond_wait, pthread_cond_timedwait", "include/boost/sync/detail/mutexes/timed_mutex_posix.hpp", "include/boost/sync/detail/semaphore/semaphore_emulation.hpp", "include/boost/sync/detail/events/auto_reset_event_emulation.hpp", "include/boost/sync/detail/events/manual_reset_event_emulation.hpp"]}
{"id": "C77", "title": "emulations: an operation that throws has no effect", "statement": "If locking the internal mutex or waiting on the internal condition variable fails and an operation of an emulated event, semaphore or timed_mutex is left by an exception, the object behaves as if the operation had never been called; the internal mutex is released.", "quantifier": "every number of threads, every interleaving, every choice of failing calls", "why_tests_cant": "needs injected OS failures", "anchors": ["include/boost/sync/detail/semaphore/semaphore_emulation.hpp", "include/boost/sync/detail/events/auto_reset_event_emulation.hpp", "include/boost/sync/detail/events/manual_reset_event_emulation.hpp", "include/boost/sync/detail/mutexes/timed_mutex_posix.hpp"]}
{"id": "C78", "title": "auto_reset_event (semaphore): a wait that throws has no effect", "statement": "If the wait of the underlying semaphore throws, the event behaves as if the wait had never been called: afterwards at most one post is remembered, none is lost, and no post is consumed by the wait that threw.", "quantifier": "every number of threads, every interleaving, every choice of failing calls", "why_tests_cant": "needs injected OS failures", "anchors": ["include/boost/sync/detail/events/auto_reset_event_semaphore.hpp: wait, try_wait, timed_wait"]}
{"id": "C79", "title": "condition_variable (POSIX): mutex and results", "statement": "Every wait returns or throws with the mutex held; it releases the mutex only as its owner. With a predicate the result is the value of the predicate at the moment of the return; without, no_timeout means that the thread was notified or woken by the system. Only timed waits give a negative result, and only after their time limit was reported to be reached.", "quantifier": "every number of threads, every interleaving, every data type, predicate and clock; spurious wake-ups, interruptions, failures at any point", "why_tests_cant": "a test observes a handful of schedules; the claim ranges over every interleaving of an unbounded number of calls", "anchors": ["include/boost/sync/detail/condition_variables/condition_variable_posix.hpp: wait, timed_wait, wait_until, wait_for, priv_wait, priv_timed_wait"]}
{"id": "C80", "title": "condition_variable (POSIX): no lost notification", "statement": "When every change of the data has been followed by a notify_all, no thread sleeps whose predicate holds. notify_one wakes one sleeper if there is one, notify_all all of them. A notified thread returns once it gets the mutex if its predicate holds.", "quantifier": "every number of threads, every interleaving, every data type, predicate and clock; spurious wake-ups, interruptions, failures at any point", "why_tests_cant": "a test observes a handful of schedules; the claim ranges over every interleaving of an unbounded number of calls", "anchors": ["include/boost/sync/detail/condition_variables/condition_variable_posix.hpp: notify_one, notify_all, priv_timed_wait", "include/boost/sync/detail/pthread.hpp: pthread_cond_wait, pthread_cond_timedwait"]}
{"id": "C81", "title": "mutex (Windows): unlock does not access the mutex after releasing it", "statement": "Once the mutex has been released by unlock, the call does not access it any more, so that the thread which locks and unlocks it last may destroy it.", "quantifier": "every number of threads, every interleaving", "why_tests_cant": "a test observes a handful of schedules; the claim ranges over every interleaving of an unbounded number of calls", "anchors": ["include/boost/sync/detail/mutexes/basic_mutex_windows.hpp: unlock"]}
{"id": "C82", "title": "condition_variable (Windows): destruction after the notification", "statement": "When every waiting thread has been notified and the notifying calls have returned, the condition variable may be destroyed: its counters are zero, its internal mutex is free and no waiting thread accesses it any more.", "quantifier": "every number of threads, every interleaving", "why_tests_cant": "a test observes a handful of schedules; the claim ranges over every interleaving of an unbounded number of calls", "anchors": ["include/boost/sync/detail/condition_variables/basic_condition_variable_windows.hpp: ~basic_condition_variable, priv_wait, wake_waiters"]}
{"id": "C83", "title": "condition_variable (Windows): the destructor frees every waiter state once", "statement": "Whatever waits and notifications have happened, the destructor ends, deletes every waiter state (and closes its semaphore) exactly once, and accesses none after its deletion; no waiter state is lost before.", "quantifier": "every number of threads, every interleaving, failures to create waiter states", "why_tests_cant": "a test observes a handful of schedules; the claim ranges over every interleaving of an unbounded number of calls", "anchors": ["include/boost/sync/detail/condition_variables/basic_condition_variable_windows.hpp: ~basic_condition_variable, initiate_wait, wake_waiters"]}
{"id": "C84", "title": "events (Windows): atomic flag, also when OS calls fail", "statement": "The events on Windows behave as a flag on which every operation acts at one moment between its call and its return: a wait that succeeds has consumed one signal (auto-reset) or seen the event set, one that returns false has seen it unset and changed nothing, an operation that throws has changed nothing. A set event keeps no thread waiting. A relative wait that fails has waited as long as asked, in pieces the OS accepts.", "quantifier": "every number of threads, every interleaving, timeouts, clock readings and failing OS calls", "why_tests_cant": "a test observes a handful of schedules; the claim ranges over every interleaving of an unbounded number of calls", "anchors": ["include/boost/sync/detail/events/basic_event_windows.hpp: set, reset, wait, try_wait, timed_wait", "include/boost/sync/detail/events/auto_reset_event_windows.hpp", "include/boost/sync/detail/events/manual_reset_event_windows.hpp"]}
{"id": "C85", "title": "constructors and destructors: no OS object is leaked or destroyed twice", "statement": "A constructor that throws because the OS cannot create an object leaves no OS object behind; the destructor destroys exactly the OS objects the constructor created, each once.", "quantifier": "every class with OS objects, every choice of failing calls", "why_tests_cant": "needs injected OS failures", "anchors": ["include/boost/sync/detail/mutexes/mutex_posix.hpp: mutex, ~mutex", "include/boost/sync/detail/mutexes/timed_mutex_posix.hpp: timed_mutex, ~timed_mutex", "include/boost/sync/detail/condition_variables/condition_variable_posix.hpp", "include/boost/sync/detail/semaphore/semaphore_posix.hpp", "include/boost/sync/detail/semaphore/semaphore_dispatch.hpp", "include/boost/sync/detail/semaphore/basic_semaphore_mach.hpp", "include/boost/sync/detail/semaphore/semaphore_windows.hpp", "include/boost/sync/detail/events/basic_event_windows.hpp", "include/boost/sync/detail/semaphore/semaphore_emulation.hpp"]}
{"id": "C86", "title": "thread-specific storage: strong guarantee when resources are exhausted", "statement": "An operation on thread-specific storage or thread exit callbacks that fails throws, changes nothing anybody can see and leaks nothing; one that returns normally has had its effect; when all threads have exited every registered function object has been called once and deleted and every mutex handed over has been unlocked.", "quantifier": "every history of calls by any number of threads, every choice of failing allocations, locks and OS calls", "why_tests_cant": "needs injected failures of single allocations and OS calls", "anchors": ["src/tss_manager.hpp: create_thread_context, set_value, add_at_exit_entry, add_notify_at_exit_entry, new_key, delete_key, destroy_thread_context", "src/tss_pthread.cpp", "src/tss_windows.cpp", "include/boost/sync/thread_specific/at_thread_exit.hpp: at_thread_exit", "include/boost/sync/thread_specific/thread_specific_ptr.hpp: reset, release", "include/boost/sync/condition_variables/notify_all_at_thread_exit.hpp: notify_all_at_thread_exit"]}
{"id": "C87", "title": "thread-specific storage on Windows: the exit of the process", "statement": "on_process_exit deals with everything any thread has handed over (passes every value to its cleanup function, calls every callback, unlocks every mutex in the thread that handed it over), each exactly once, and returns; neither it nor any call made by the functions it calls, or after it, uses the manager or a context after it has been deleted; hooks called again do nothing.", "quantifier": "every number of threads, every interleaving of calls and hooks, every behaviour of callbacks and cleanup functions, both ways to find the context of a thread", "why_tests_cant": "needs the process to exit or the library to be unloaded at each moment", "anchors": ["src/tss_windows.cpp: on_process_exit, on_thread_exit, get_thread_context, set_thread_specific, get_thread_specific, add_thread_exit_callback, add_thread_exit_notify_entry, new_thread_specific_key, delete_thread_specific_key", "src/tss_manager.hpp: ~tss_manager, destroy_thread_context", "src/tss_windows_dll.cpp: DllMain", "src/tss_windows_pe.cpp: on_process_init, on_process_term, on_tls_callback, dll_callback"]}
{"id": "C88", "title": "thread-specific storage on Windows: the hooks are called", "statement": "However the library is built, each thread that ends calls on_thread_exit; the thread that ends the process (or unloads the library) calls on_thread_exit and after that on_process_exit; no on_thread_exit follows an on_process_exit. So what a thread has handed over is dealt with in that thread, and if all threads have left on_process_exit finds nothing to do.", "quantifier": "every way to build the library (DLL, MSVC static in a program or DLL, MinGW recent and old), every sequence of threads starting and ending, every execution in which the hooks are called by the loader only", "why_tests_cant": "needs each compiler and a process that exits", "anchors": ["src/tss_windows_dll.cpp: DllMain", "src/tss_windows_pe.cpp: on_tls_callback, on_process_init, on_process_term, dll_callback", "src/tss_windows_hooks.hpp", "src/tss_windows.cpp: on_thread_exit, on_process_exit"]}
{"id": "C89", "title": "semaphore-based auto_reset_event: memory order of posts", "statement": "A wait that succeeds knows what was done before every post that returned before the wait was called, and a post made while a thread is blocked wakes it or another, also when loads read values that are not the newest, as the C++ memory model permits.", "quantifier": "every number of threads and every execution; relaxed loads and failing compare-exchanges read any value not older than one known; threads also synchronise by other means", "why_tests_cant": "weakly ordered hardware shows it rarely, if at all", "anchors": ["include/boost/sync/detail/events/auto_reset_event_semaphore.hpp: post, wait, try_wait, timed_wait"]}
{"id": "C90", "title": "futex auto_reset_event: what post and failing waits find, under weak memory", "statement": "A post made while a thread is blocked and all earlier posts are used up wakes it, and a wait fails only if there is no post to take, also when relaxed loads read values that are not the newest, as the C++ memory model permits.", "quantifier": "every execution of at most 1023 threads; relaxed loads and failing compare-exchanges read any value not older than one known; threads also synchronise by other means", "why_tests_cant": "weakly ordered hardware shows it rarely, if at all", "anchors": ["include/boost/sync/detail/events/auto_reset_event_futex.hpp: post, wait, try_wait, priv_timed_wait, on_wait_timed_out"]}
{"id": "C91", "title": "events, semaphores and mutexes: destruction by the thread that was released", "statement": "post, set and unlock make no access to the object after a wait (lock) they released has returned: when every signal has been consumed and no other call is pending, the object may be destroyed.", "quantifier": "every number of threads, every interleaving; spin mutexes, emulations, the event over a semaphore, the events on futexes", "why_tests_cant": "a test observes a handful of schedules; the claim ranges over every interleaving of an unbounded number of calls", "anchors": ["include/boost/sync/detail/events/auto_reset_event_emulation.hpp: post", "include/boost/sync/detail/events/manual_reset_event_emulation.hpp: set", "include/boost/sync/detail/semaphore/semaphore_emulation.hpp: post", "include/boost/sync/detail/mutexes/timed_mutex_posix.hpp: unlock", "include/boost/sync/detail/events/auto_reset_event_semaphore.hpp: post", "include/boost/sync/detail/events/auto_reset_event_futex.hpp: post", "include/boost/sync/detail/events/manual_reset_event_futex.hpp: set", "include/boost/sync/detail/mutexes/spin_mutex.hpp: unlock", "include/boost/sync/detail/mutexes/shared_spin_mutex.hpp: unlock, unlock_shared"]}
{"id": "C92", "title": "failures of the operating system are reported", "statement": "A function that has called the operating system returns normally only if none of its calls has failed; if one has, it throws the exception of the right class (lock_error, wait_error, resource_error, overflow_error, runtime_exception) with the error code that the system gave for a failed call. Timeouts, busy mutexes and interruptions are not failures. Debug builds stop with an assertion only after misuse.", "quantifier": "every sequence of documented answers of the system, every value of shared memory; all functions of the POSIX, Windows, Mach and Dispatch back ends that call the system; debug and release builds, with and without the workaround for EINTR, with and without pthread_mutex_timedlock", "why_tests_cant": "The failures of the operating system (no memory, no handles, deadlock detected, semaphore at its limit) cannot be provoked in a test, and their combinations even less.", "anchors": ["include/boost/sync/detail/mutexes/mutex_posix.hpp", "include/boost/sync/detail/mutexes/timed_mutex_posix.hpp", "include/boost/sync/detail/condition_variables/condition_variable_posix.hpp", "include/boost/sync/detail/semaphore/semaphore_posix.hpp", "include/boost/sync/detail/mutexes/basic_mutex_windows.hpp", "include/boost/sync/detail/mutexes/timed_mutex_windows.hpp", "include/boost/sync/detail/events/basic_event_windows.hpp", "include/boost/sync/detail/semaphore/semaphore_windows.hpp", "include/boost/sync/detail/condition_variables/basic_condition_variable_windows.hpp", "include/boost/sync/detail/waitable_timer.hpp", "include/boost/sync/detail/auto_handle.hpp", "include/boost/sync/detail/semaphore/basic_semaphore_mach.hpp", "include/boost/sync/detail/semaphore/semaphore_dispatch.hpp", "include/boost/sync/detail/condition_variables/condition_variable_any_generic.hpp", "include/boost/sync/detail/semaphore/semaphore_emulation.hpp", "include/boost/sync/exceptions/"]}
{"id": "C93", "title": "functions that must not throw do not terminate the process", "statement": "Destructors, unlock, notify_one, notify_all and the other functions declared noexcept neither throw nor let an exception reach std::terminate, whatever the operating system answers; no exception is thrown while another one propagates.", "quantifier": "every sequence of documented answers of the system, every value of shared memory; debug and release builds", "why_tests_cant": "The failures of the operating system (no memory, no handles, deadlock detected, semaphore at its limit) cannot be provoked in a test, and their combinations even less.", "anchors": ["include/boost/sync/detail/mutexes/mutex_posix.hpp: unlock", "include/boost/sync/detail/mutexes/basic_mutex_windows.hpp: unlock, get_event", "include/boost/sync/detail/condition_variables/basic_condition_variable_windows.hpp: notify_one, notify_all, relocker", "include/boost/sync/detail/events/auto_reset_event_semaphore.hpp: post", "include/boost/sync/detail/condition_variables/condition_variable_any_generic.hpp: relocker", "include/boost/sync/detail/waitable_timer.hpp", "include/boost/sync/detail/auto_handle.hpp"]}
{"id": "C94", "title": "results say whether the object has been acquired", "statement": "A function that waits on or locks an object of the operating system returns normally (or returns true) if and only if exactly one of its calls has acquired the object, however often it was interrupted; when it returns false or throws it has acquired nothing. It returns false only if the system said that the object is not available or that the time is over, or the user's clock did; a duration has passed in full. Where the object is shared data, the result is that of the last look at it.", "quantifier": "every sequence of documented answers of the system, every value of shared memory and of the user's clock; POSIX mutexes and semaphores, Windows events and semaphores, Mach and Dispatch semaphores, and events over semaphores; debug and release builds", "why_tests_cant": "The failures of the operating system (no memory, no handles, deadlock detected, semaphore at its limit) cannot be provoked in a test, and their combinations even less.", "anchors": ["include/boost/sync/detail/mutexes/mutex_posix.hpp", "include/boost/sync/detail/mutexes/timed_mutex_posix.hpp", "include/boost/sync/detail/semaphore/semaphore_posix.hpp: wait, try_wait, timed_wait", "include/boost/sync/detail/events/basic_event_windows.hpp", "include/boost/sync/detail/semaphore/semaphore_windows.hpp", "include/boost/sync/detail/semaphore/basic_semaphore_mach.hpp", "include/boost/sync/detail/semaphore/semaphore_dispatch.hpp", "include/boost/sync/detail/events/auto_reset_event_semaphore.hpp"]}
{"id": "C95", "title": "internal mutexes and the user's lock are given back", "statement": "The emulations and condition_variable_any touch their shared data, notify, sleep and unlock the user's lock only while they own the internal mutex, and lock the user's lock only while they do not; however a function is left, the internal mutex has been unlocked. A wait on a condition variable sleeps only while the user's lock is unlocked and leaves it locked, whether it returns or throws, unless the exception is that of the user's own lock or unlock.", "quantifier": "every sequence of documented answers of the system, every value of shared memory, every exception of the user's lock; debug and release builds", "why_tests_cant": "The failures of the operating system (no memory, no handles, deadlock detected, semaphore at its limit) cannot be provoked in a test, and their combinations even less.", "anchors": ["include/boost/sync/detail/condition_variables/condition_variable_any_generic.hpp", "include/boost/sync/detail/condition_variables/basic_condition_variable_windows.hpp", "include/boost/sync/detail/events/auto_reset_event_emulation.hpp", "include/boost/sync/detail/events/manual_reset_event_emulation.hpp", "include/boost/sync/detail/semaphore/semaphore_emulation.hpp", "include/boost/sync/detail/mutexes/timed_mutex_posix.hpp", "include/boost/sync/detail/pthread_mutex_locks.hpp"]}
{"id": "C96", "title": "no livelock: retry loops cost a bounded number of steps per call", "statement": "In every run of a component with retry loops the number of steps is at most a constant (depending on the number of threads only) times the number of steps for which users or the environment are responsible: calls, the users' work, spurious wake-ups and failures, outdated loads, spinning while somebody owns the lock or initialises the object. So the threads cannot keep each other busy for ever. When these steps stop, the component comes to rest, whatever the schedule; then every call has returned or waits for something that only a user can bring about: a post, a set, an unlock.", "quantifier": "every run, every number of threads, every interleaving, spurious failures and outdated loads included", "why_tests_cant": "livelocks need a particular infinite schedule; a test that terminates has not met one", "anchors": ["include/boost/sync/detail/events/auto_reset_event_futex.hpp", "include/boost/sync/detail/events/manual_reset_event_futex.hpp", "include/boost/sync/detail/mutexes/basic_mutex_windows.hpp", "include/boost/sync/detail/mutexes/timed_mutex_windows.hpp", "include/boost/sync/detail/mutexes/spin_mutex.hpp", "include/boost/sync/detail/mutexes/shared_spin_mutex.hpp", "include/boost/sync/detail/events/auto_reset_event_semaphore.hpp", "include/boost/sync/detail/condition_variables/condition_variable_any_generic.hpp", "include/boost/sync/detail/condition_variables/basic_condition_variable_windows.hpp", "include/boost/sync/detail/condition_variables/condition_variable_posix.hpp", "include/boost/sync/detail/semaphore/semaphore_emulation.hpp", "include/boost/sync/detail/events/auto_reset_event_emulation.hpp", "include/boost/sync/detail/events/manual_reset_event_emulation.hpp", "include/boost/sync/detail/waitable_timer.hpp: init, get_waitable_timer", "src/tss_windows.cpp: init_tss_once"]}
{"id": "C97", "title": "Windows condition variable: units left in a semaphore and a full semaphore do no harm", "statement": "A wait that times out while it is being notified returns without taking its unit out of the semaphore, so units are left behind. The count of a semaphore never exceeds the maximum LONG_MAX; when it would, ReleaseSemaphore fails and wake_waiters ignores that, which can happen with two threads. Nevertheless, with at most 2^30 threads, every outstanding notification finds a unit in the semaphore of its node and no notification is lost. A unit left behind can wake a later wait for nothing (arbitrarily often, up to the maximum), which then goes on waiting.", "quantifier": "every interleaving of waits, timeouts and notifications of at most 2^30 threads, every number of units left behind", "why_tests_cant": "filling a semaphore takes 2^31 waits that time out in a race with a notification", "anchors": ["include/boost/sync/detail/condition_variables/basic_condition_variable_windows.hpp: wake_waiters, priv_wait, priv_timed_wait"]}
{"id": "C98", "title": "Configuration: each class gets exactly one supported implementation, whatever is included in whatever order", "statement": "The macros and declarations of each header do not depend on which headers are included before it. Exactly one platform is selected and the ABI namespace is named. Each class gets exactly one implementation; the system supports it, and it is an emulation only where the system has nothing better. BOOST_SYNC_USE_PTHREAD keeps everything but pthreads and POSIX out. Classes of members are declared before they are used, and an auto reset event over a semaphore is over a semaphore of the system. Futex calls that wait and that wake agree on FUTEX_PRIVATE_FLAG if the system defines both macros or neither.", "quantifier": "every set of macros of compiler, system and user, every sequence of includes", "why_tests_cant": "a test runs on one system with one order of includes; nobody owns all the systems the headers select by", "anchors": ["include/boost/sync/detail/config.hpp", "include/boost/sync/detail/semaphore_config.hpp", "include/boost/sync/detail/atomic.hpp", "include/boost/sync/detail/pthread.hpp", "include/boost/sync/detail/futex.hpp", "include/boost/sync/mutexes/mutex.hpp", "include/boost/sync/events/auto_reset_event.hpp"]}
{"id": "C99", "title": "Configuration: classes with the same mangled name have the same members", "statement": "The inline namespace (posix, linux_, windows6, windows_, mach) is part of the name of each class. Where two translation units of one program have classes of the same name, these have the same data members.", "quantifier": "every set of macros of compiler, system and user, every sequence of includes", "why_tests_cant": "mixing translation units of different settings corrupts memory silently", "anchors": ["include/boost/sync/detail/config.hpp: BOOST_SYNC_DETAIL_ABI_NAMESPACE", "include/boost/sync/detail/semaphore_config.hpp", "include/boost/sync/detail/atomic.hpp"]}
{"id": "C100", "title": "Configuration: headers leave the compiler's diagnostics as they were", "statement": "header.hpp saves the state of the warnings and footer.hpp restores it. After any includes the stack of saved states is as before.", "quantifier": "every set of macros of compiler, system and user, every sequence of includes", "why_tests_cant": "an unbalanced pop shows up as a missing or an additional warning in code of the user, with certain compilers only", "anchors": ["include/boost/sync/detail/header.hpp", "include/boost/sync/detail/footer.hpp"]}
{"id": "C101", "title": "Configuration: macros that describe the classes tell the truth", "statement": "BOOST_SYNC_DEFINES_..._CONSTEXPR_CONSTRUCTOR is defined if and only if the default constructor is constexpr, and then all members can be initialized by constants. BOOST_SYNC_DEFINES_..._NATIVE_HANDLE is defined if and only if there is a native_handle. With the condition variable over pthreads, mutexes that claim to be compatible have a native handle. BOOST_SYNC_DETAIL_TLS is defined if and only if BOOST_SYNC_USE_COMPILER_TLS is, and only with compilers that have thread local variables.", "quantifier": "every set of macros of compiler, system and user, every sequence of includes", "why_tests_cant": "tests use the macros to skip what they say is not there", "anchors": ["include/boost/sync/detail/mutexes/mutex_posix.hpp", "include/boost/sync/detail/mutexes/timed_mutex_posix.hpp", "include/boost/sync/detail/condition_variables/condition_variable_any_generic.hpp", "include/boost/sync/detail/config.hpp"]}
{"id": "C102", "title": "Builds of the library: one implementation of thread specific storage, one hook, consistent linking", "statement": "Every build compiles exactly one implementation of tss.hpp and one place for the pointer of a thread. On Windows it compiles exactly one hook that cleans up when threads end: that of a DLL if the symbols are exported, that of a static library if the compiler has one. Symbols are exported by the library and imported by users; automatic linking takes the shared library if and only if symbols are imported.", "quantifier": "every set of macros of compiler, system and build", "why_tests_cant": "tests build the library in one way on one system", "anchors": ["src/tss_pthread.cpp", "src/tss_windows.cpp", "src/tss_windows_dll.cpp", "src/tss_windows_pe.cpp", "include/boost/sync/detail/link_config.hpp", "build/Jamfile.v2"]}
{"id": "C103", "title": "Configuration: spin mutexes use lock-free booleans where there are some", "statement": "Where atomic booleans are always lock-free, spin_mutex is the class that tests before it sets.", "quantifier": "every set of macros of compiler, system and user, every sequence of includes", "why_tests_cant": "both classes pass all tests", "anchors": ["include/boost/sync/detail/mutexes/spin_mutex.hpp:28-33"]}
{"id": "C104", "title": "futex manual_reset_event: what waits find, under weak memory", "statement": "A wait succeeds only if the event was set, and fails only if it was not set, at an instant that is not before anything the thread knows of; after a success the thread knows what was done before the set() calls up to that instant; and no thread sleeps for ever while the event is set. All this also when loads read values that are not the newest, as the C++ memory model permits.", "quantifier": "every execution of fewer than 2^31 threads; loads read any value not older than one known; threads also synchronise by other means", "why_tests_cant": "weakly ordered hardware shows it rarely, if at all", "anchors": ["include/boost/sync/detail/events/manual_reset_event_futex.hpp: set, reset, wait, try_wait, priv_timed_wait"]}
{"id": "C105", "title": "manual_reset_event: reset knows what was signalled before", "statement": "A thread whose reset() clears the signal of a set() knows what was done before the set(), so that a thread which resets the event, tests its condition and then waits does not miss the signal. In the emulations every operation that returns knows what was done before the earlier signals.", "quantifier": "every number of threads and every execution; the emulations of semaphores, events and timed mutexes, the event on futexes", "why_tests_cant": "weakly ordered hardware shows it rarely, if at all", "anchors": ["include/boost/sync/detail/events/manual_reset_event_futex.hpp: reset", "include/boost/sync/detail/events/manual_reset_event_emulation.hpp: reset", "include/boost/sync/detail/events/auto_reset_event_emulation.hpp", "include/boost/sync/detail/semaphore/semaphore_emulation.hpp", "include/boost/sync/detail/mutexes/timed_mutex_posix.hpp"]}
{"id": "C106", "title": "Windows condition variable: skipped notifications, under weak memory", "statement": "A notification that is skipped because the waiter count read is 0 was not needed at an instant after every change of the count that happens before the notification; a notifier that has locked the user's lock after a waiter unlocked it knows of the waiter; inside of the critical section the relaxed loads read the newest count. So no notification is lost although all accesses to the count are relaxed or synchronise with nothing.", "quantifier": "every number of threads and every execution; loads read any value not older than one that happens before; threads also synchronise by other means", "why_tests_cant": "weakly ordered hardware shows it rarely, if at all", "anchors": ["include/boost/sync/detail/condition_variables/basic_condition_variable_windows.hpp: notify_one, notify_all, wake_waiters, initiate_wait, priv_wait, priv_timed_wait"]}
{"id": "C107", "title": "Exceptions tell the error they were thrown for", "statement": "Every place of the library that throws an exception with an error code compiles, with Boost.System and with the standard library's system_error; the exception has the class named, native_error() is the code passed, and code() compares equal to the constant of errc it was thrown with.", "quantifier": "all classes of exceptions, all values of codes of the system, all values of the constants and assignments of conditions to values, both choices of system_error", "why_tests_cant": "error paths are rarely executed; the option for std::system_error is not built by the tests", "anchors": ["include/boost/sync/exceptions/runtime_exception.hpp, lock_error.hpp, wait_error.hpp, overflow_error.hpp, resource_error.hpp", "include/boost/sync/detail/system_error.hpp", "include/boost/sync/detail/throw_exception.hpp", "include/boost/sync/locks/unique_lock.hpp: lock, try_lock, unlock"]}
{"id": "C108", "title": "The system is asked to wait until the time the user gave", "statement": "Whatever the type of a time point of the system clock (std or Boost chrono with any period, Boost.DateTime, timespec), the time handed to the system is that time, rounded down to the unit of the system; a time in the past never blocks, and no timeout is reported before the time.", "quantifier": "all time points of all types, periods and epochs, POSIX and Windows", "why_tests_cant": "tests use times near the present and do not measure fractions of a millisecond", "anchors": ["include/boost/sync/support/std_chrono.hpp, boost_chrono.hpp, boost_date_time.hpp, posix_time.hpp: to_sync_unit", "include/boost/sync/detail/time_units.hpp: system_time_point", "include/boost/sync/detail/events/basic_event_windows.hpp: timed_wait (SetWaitableTimer)"]}
{"id": "C109", "title": "Every timed function accepts every supported type of time", "statement": "With the support header included, every function with a timeout of every class can be called with every duration (functions for durations), every time point (functions for time points) of the supported libraries: any period, any representation, any clock. Types that are not supported or not of the right kind are refused at the call.", "quantifier": "all classes, functions, combinations of headers, periods, clocks", "why_tests_cant": "a test would have to be compiled for every type", "anchors": ["include/boost/sync/detail/time_traits.hpp", "include/boost/sync/detail/events/manual_reset_event_futex.hpp: priv_timed_wait", "include/boost/sync/detail/semaphore/semaphore_posix.hpp: priv_timed_wait", "include/boost/sync/detail/mutexes/timed_mutex_posix.hpp: priv_timed_lock", "include/boost/sync/detail/condition_variables/condition_variable_posix.hpp: priv_timed_wait"]}
{"id": "C110", "title": "The members of the lock classes work with every mutex that has the functions they are named after", "statement": "Each constructor, assignment and function of unique_lock, shared_lock and upgrade_lock, including the conversions between them, can be used with every mutex that provides the corresponding function (lock, lock_shared, try_lock_upgrade, unlock_and_lock_shared, …), and needs no other.", "quantifier": "all members of the three classes, all mutexes", "why_tests_cant": "members of templates that are never used are never compiled, and no mutex of the library has the functions for conversions", "anchors": ["include/boost/sync/locks/unique_lock.hpp", "include/boost/sync/locks/shared_lock.hpp", "include/boost/sync/locks/upgrade_lock.hpp"]}
{"id": "C111", "title": "Functions that do not wait return although all other threads stand still", "statement": "If all other threads stop taking steps, at any place inside any function, then try_lock, unlock, post, set, reset and try_wait return after a small fixed number of steps, and the functions that wait return or reach the wait of the system (where another thread has to act) after a small fixed number of steps. lock and lock_shared return if no thread owns the mutex.", "quantifier": "a test observes a handful of schedules; the claim ranges over every interleaving of an unbounded number of calls", "why_tests_cant": "a test would have to suspend the other threads at every single instruction", "anchors": ["include/boost/sync/detail/mutexes/spin_mutex.hpp", "include/boost/sync/detail/mutexes/basic_mutex_windows.hpp", "include/boost/sync/detail/events/auto_reset_event_futex.hpp", "include/boost/sync/detail/events/manual_reset_event_futex.hpp", "include/boost/sync/detail/events/auto_reset_event_semaphore.hpp", "include/boost/sync/detail/events/basic_event_windows.hpp"]}
{"id": "C112", "title": "Internal mutexes are held for a bounded number of steps only", "statement": "A thread that owns the internal mutex of an emulated event, semaphore or timed mutex, of the generic condition_variable_any or of a condition variable of Windows gives it back after a bounded number of its own steps, whatever the other threads and the system do: it never sleeps and never locks the user's lock meanwhile. While nobody else owns the internal mutex, every call returns, throws, goes to sleep in the wait of the system, or needs the user's lock that somebody else owns, after a bounded number of steps of the caller alone; calls that are not meant to wait do not sleep. For Windows the bound is the number of waiter states plus a constant.", "quantifier": "a test observes a handful of schedules; the claim ranges over every interleaving of an unbounded number of calls", "why_tests_cant": "whether the internal mutex is ever held across a blocking operation or an endless loop depends on places where no test suspends a thread", "anchors": ["include/boost/sync/detail/events/auto_reset_event_emulation.hpp", "include/boost/sync/detail/events/manual_reset_event_emulation.hpp", "include/boost/sync/detail/semaphore/semaphore_emulation.hpp", "include/boost/sync/detail/mutexes/timed_mutex_posix.hpp", "include/boost/sync/detail/condition_variables/condition_variable_any_generic.hpp", "include/boost/sync/detail/condition_variables/condition_variable_posix.hpp", "include/boost/sync/detail/condition_variables/basic_condition_variable_windows.hpp"]}
{"id": "C113", "title": "Windows condition variable: failing locks do no lasting harm", "statement": "Whatever fails inside a wait or a notification on Windows, also locking the internal mutex or locking the user's lock again: a wait that returns, or throws an exception that is not that of the user's lock, owns the user's lock; the internal mutex is not left locked; the number of waiters stays right, so that no later notification is lost.", "quantifier": "a test observes a handful of schedules; the claim ranges over every interleaving of an unbounded number of calls", "why_tests_cant": "the internal mutex throws only if it is locked at that moment and the system cannot create or wait for an event", "anchors": ["include/boost/sync/detail/condition_variables/basic_condition_variable_windows.hpp", "include/boost/sync/detail/mutexes/basic_mutex_windows.hpp"]}
{"id": "C114", "title": "a blocked call is not passed over for ever", "statement": "In every execution without end in which the scheduler does not forget any thread, a call that blocks returns if what it waits for is the case again and again: lock() and lock_shared() if the mutex is free again and again, wait() if the event or semaphore is signalled again and again.", "quantifier": "every execution without end under a weakly fair scheduler, every number of threads", "why_tests_cant": "starvation is a property of executions without end; a test sees finite executions only", "anchors": ["include/boost/sync/detail/mutexes/spin_mutex.hpp", "include/boost/sync/detail/mutexes/shared_spin_mutex.hpp", "include/boost/sync/detail/mutexes/basic_mutex_windows.hpp", "include/boost/sync/detail/events/auto_reset_event_futex.hpp", "include/boost/sync/detail/events/manual_reset_event_futex.hpp", "include/boost/sync/detail/events/auto_reset_event_semaphore.hpp", "include/boost/sync/detail/events/auto_reset_event_emulation.hpp", "include/boost/sync/detail/events/manual_reset_event_emulation.hpp", "include/boost/sync/detail/semaphore/semaphore_emulation.hpp", "include/boost/sync/detail/mutexes/timed_mutex_posix.hpp"]}
{"id": "C115", "title": "a notified wait comes back", "statement": "In every execution without end in which no thread that can take its next step again and again is passed over for ever, every call of notify_one and notify_all ends. If the user's lock is free again and again as well, a wait that a notification woke returns, and when notify_all takes effect all waits return that had released the user's lock by then; a wait with a predicate returns if the predicate holds from then on.", "quantifier": "every execution without end under a strongly fair scheduler, every number of threads", "why_tests_cant": "that a call returns at all is a property of executions without end; a test sees finite executions only and cannot tell a late return from none", "anchors": ["include/boost/sync/detail/condition_variables/condition_variable_any_generic.hpp", "include/boost/sync/detail/condition_variables/basic_condition_variable_windows.hpp", "include/boost/sync/detail/condition_variables/condition_variable_posix.hpp"]}
{"id": "C116", "title": "waiting for a one-time initialisation ends", "statement": "In every execution without end in which the scheduler does not forget a thread, every call that may have to wait for an initialisation by another thread comes to an end: get_waitable_timer proceeds or throws, init_tss_once goes on to the manager, get_event of the Windows mutex returns an event or throws. An initialisation that begins is completed or fails.", "quantifier": "every execution without end under a weakly fair scheduler, every number of threads and modules, every choice of failing OS calls", "why_tests_cant": "the waiting loops spin without bound; that they are left is a property of executions without end", "anchors": ["include/boost/sync/detail/waitable_timer.hpp", "src/tss_windows.cpp", "include/boost/sync/detail/mutexes/basic_mutex_windows.hpp"]}
{"id": "C117", "title": "a timed wait of a condition variable ends without a notification", "statement": "A wait with a time limit on a condition variable (condition_variable_any with a time point of the system's clock, the POSIX condition_variable with such a time point and with or without a predicate, and every timed wait of the Windows condition variable) ends: it returns (or, as documented, throws or ends the process) although no thread ever notifies it, although its predicate never becomes true, and although it is woken too early any number of times.", "quantifier": "Every execution without end with any number of threads, in which a thread that can take its next step again and again is not passed over for ever, the user's lock is free again and again, and a call that sleeps again and again with a time limit eventually times out.", "why_tests_cant": "A test observes one wait that times out; that no interleaving of early wake-ups, of notifications meant for others, or of contention on the lock makes a timed wait run for ever is a statement about executions without end.", "anchors": ["include/boost/sync/detail/condition_variables/condition_variable_any_generic.hpp", "include/boost/sync/detail/condition_variables/condition_variable_posix.hpp", "include/boost/sync/detail/condition_variables/condition_variable_windows.hpp", "include/boost/sync/detail/condition_variables/basic_condition_variable_windows.hpp"]}
{"id": "C118", "title": "timed waits of events, semaphores and the emulated timed mutex end", "statement": "A wait or lock with a time limit comes to an end although the object never becomes ready, and although other threads are faster again and again: the emulations of auto_reset_event, manual_reset_event and semaphore, timed_mutex without pthread_mutex_timedlock, auto_reset_event over a semaphore and manual_reset_event over a futex.", "quantifier": "Every execution without end with any number of threads, in which the scheduler does not pass over a thread for ever and a call that is in its sleep again and again learns that its time limit has passed.", "why_tests_cant": "A test observes one call that times out; that early wake-ups, posts taken by others, sets followed by resets and contention cannot keep a timed call going for ever is a statement about executions without end.", "anchors": ["include/boost/sync/detail/events/auto_reset_event_emulation.hpp", "include/boost/sync/detail/events/manual_reset_event_emulation.hpp", "include/boost/sync/detail/semaphore/semaphore_emulation.hpp", "include/boost/sync/detail/mutexes/timed_mutex_posix.hpp", "include/boost/sync/detail/events/auto_reset_event_semaphore.hpp", "include/boost/sync/detail/events/manual_reset_event_futex.hpp"]}
{"id": "C119", "title": "timed calls that retry compare-exchanges end", "statement": "A wait with a time limit on the auto_reset_event over a futex, and a lock with a time limit of the Windows timed_mutex, return or throw: after the time limit has passed the call does not go on for ever, whatever other threads do.", "quantifier": "Every execution without end with any number of threads, in which no thread is forgotten, loads read the newest value, compare-exchanges do not fail without a reason and time passes.", "why_tests_cant": "That the loops of compare-exchanges in on_wait_timed_out, mark_waiting_and_try_lock and clear_waiting_and_try_lock are left is a property of executions without end; the interleavings that keep them going have no bound.", "anchors": ["include/boost/sync/detail/events/auto_reset_event_futex.hpp", "include/boost/sync/detail/mutexes/timed_mutex_windows.hpp", "include/boost/sync/detail/mutexes/basic_mutex_windows.hpp"]}
{"id": "C120", "title": "a wait for a time point of a user's clock ends once the clock reaches it", "statement": "A wait of condition_variable_any or of the POSIX condition_variable for a time point of a clock of the user (the loop that reads the clock, sleeps for the difference and reads the clock again) ends, although no thread notifies it, although its predicate never becomes true and although the clock turns out to be behind after any number of sleeps, provided that the clock reaches the time point; if the clock never does, the wait can go on for ever.", "quantifier": "Every execution without end with any number of threads, in which a thread that can take its next step again and again is not passed over for ever, the user's lock is free again and again, sleeps end after their time, and one of infinitely many readings of the clock is not before the deadline.", "why_tests_cant": "Clocks that run at another speed, are stopped or moved back give unboundedly many rounds of the loop; a test tries a few of them.", "anchors": ["include/boost/sync/detail/condition_variables/condition_variable_any_generic.hpp", "include/boost/sync/detail/condition_variables/condition_variable_posix.hpp"]}
{"id": "C121", "title": "a lock object whose destructor cannot unlock does not lose the mutex silently", "statement": "If the unlocking function of the mutex throws in the destructor of unique_lock, upgrade_lock or shared_lock (or of the temporary in an assignment from another kind of lock), a program compiled as C++11 or later is terminated, and for no other reason; as long as it runs the outstanding ownerships of each mutex are exactly those reported by live lock objects. Before C++11 the exception leaves the destructor, and the outstanding ownerships are those of live objects plus one for each such exception.", "quantifier": "Every sequence of calls of members of any number of lock objects of the three kinds on any number of mutexes, with every answer of the mutexes, also exceptions in explicit calls and in destructors.", "why_tests_cant": "Mutexes whose unlock throws are not among those a test uses; the accounting is over histories of any length.", "anchors": ["include/boost/sync/locks/unique_lock.hpp", "include/boost/sync/locks/upgrade_lock.hpp", "include/boost/sync/locks/shared_lock.hpp"]}
{"id": "C122", "title": "guards stay correct when a mutex cannot be unlocked", "statement": "If the unlocking function called by the destructor of lock_guard, shared_lock_guard or unique_lock, or by the constructor of unlock_guard, throws, a program compiled as C++11 or later is terminated at that point: until then it behaves as if no unlocking function threw, and no part of it runs afterwards. So the guarantees of the guards (the state of the mutex inside, balanced locking when a block is left by any way) hold whichever unlocking functions throw.", "quantifier": "Every program made of nested and sequential guards of the four kinds, exceptions and handlers, of any size, on any number of mutexes, with any choice of lock and unlock functions that throw.", "why_tests_cant": "Programs are unbounded in size and nesting; tests do not use mutexes whose unlock throws.", "anchors": ["include/boost/sync/locks/lock_guard.hpp", "include/boost/sync/locks/shared_lock_guard.hpp", "include/boost/sync/locks/unlock_guard.hpp", "include/boost/sync/locks/unique_lock.hpp"]}
