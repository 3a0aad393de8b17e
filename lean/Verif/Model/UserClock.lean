import Verif.Base.LTS
import Verif.Model.Time

/-!
# Timed operations with the time points of a user's clock

All overloads taking a `chrono_time_point` read the user's clock, call the overload for relative durations and repeat:

* `do … while (now < t.get())`: semaphore_posix.hpp 169-183, semaphore_windows.hpp 179-195, semaphore_dispatch.hpp 126-140,
  auto_reset_event_futex.hpp 276-292, manual_reset_event_futex.hpp 187-203, basic_event_windows.hpp 171-187;
* `while (now < t.get())`: basic_semaphore_mach.hpp 134-148, condition_variable_posix.hpp 230-244,
  basic_condition_variable_windows.hpp 239-253;
* an attempt followed by `while (now < t.get())`: timed_mutex_posix.hpp 246-263, timed_mutex_windows.hpp 98-105 (the attempt)
  and 210-224.

The clock and the results of the relative overload (in the lines before those named) are chosen by the environment; they are
described by `Verif.Model.Time`, `Verif.Model.WaitLoop` and the models of the single primitives.  Clock readings are in ticks
of the user's clock; overflow of `t.get() - now` is not modelled.  `manual_reset_event_futex.hpp` (line 196) calls `timed_wait` instead of
`priv_timed_wait` in the loop, for which no traits exist, so that this overload cannot be instantiated; it is modelled as
meant.
-/

namespace Verif.UserClock

/-- The implementations; see the list of lines above (semaphore_posix.hpp 169-183 and so on). -/
inductive Impl
  | semPosix | semWindows | semDispatch | semMach
  | autoEventFutex | manualEventFutex | eventWindows
  | timedMutexPosix | timedMutexWindows
  | cvPosix | cvWindows
  deriving DecidableEq, Repr

/-- The three forms of loop: e.g. semaphore_posix.hpp 175-182; basic_semaphore_mach.hpp 140-147; timed_mutex_windows.hpp 101-104 with
216-223. -/
inductive Shape
  | doWhile | whileOnly | tryThenWhile
  deriving DecidableEq, Repr

/-- The form of the loop, see the list of lines above (semaphore_posix.hpp 169-183 and so on). -/
def Impl.shape : Impl → Shape
  | .semPosix | .semWindows | .semDispatch | .autoEventFutex | .manualEventFutex | .eventWindows => .doWhile
  | .semMach | .cvPosix | .cvWindows => .whileOnly
  | .timedMutexPosix | .timedMutexWindows => .tryThenWhile

/-- Where a call is, by the example of timed_mutex_windows.hpp: 101 (`trying`), 216 (`first`), 219 (`body`), 221 (`again`). -/
inductive PC
  /-- about to call `try_lock` -/
  | trying
  /-- `time_point now = clock::now();` -/
  | first
  /-- about to call the overload for durations with `t.get() - now` -/
  | body (now : Int)
  /-- `now = clock::now();` at the end of the body -/
  | again
  | done (r : Bool)
  deriving DecidableEq, Repr

/-- Answers of the environment (timed_mutex_windows.hpp 101, 216, 219, 221). -/
inductive Act
  | tryLock (r : Bool)
  | clock (n : Int)
  | relative (r : Bool)
  deriving DecidableEq, Repr

/-- What is observed (timed_mutex_windows.hpp 101, 216, 219, 221, 223). -/
inductive Ev
  /-- result of `try_lock` -/
  | tried (r : Bool)
  /-- a reading of the user's clock -/
  | read (n : Int)
  /-- the relative overload was called with this duration and returned `r` -/
  | waited (dur : Int) (r : Bool)
  | ret (r : Bool)
  deriving DecidableEq, Repr

/-- The begin of a call (timed_mutex_windows.hpp 101; the others begin with the clock, e.g. semaphore_posix.hpp 175). -/
def start : Shape → PC
  | .tryThenWhile => .trying
  | _ => .first

/-- One answer of the environment together with the code up to the next question; for the lines see the list above
(semaphore_posix.hpp 175-182, basic_semaphore_mach.hpp 140-147, timed_mutex_windows.hpp 101-104 with 216-223 and so on). -/
def step (k : Shape) (deadline : Int) : StepFn PC Act Ev := fun pc a =>
  match pc, a with
  | .trying, .tryLock true => some (.done true, [.tried true, .ret true])
  | .trying, .tryLock false => some (.first, [.tried false])
  | .first, .clock n =>
    if k = .doWhile then some (.body n, [.read n])
    else if n < deadline then some (.body n, [.read n])
    else some (.done false, [.read n, .ret false])
  | .body now, .relative true => some (.done true, [.waited (deadline - now) true, .ret true])
  | .body now, .relative false => some (.again, [.waited (deadline - now) false])
  | .again, .clock n =>
    if n < deadline then some (.body n, [.read n])
    else some (.done false, [.read n, .ret false])
  | _, _ => none

end Verif.UserClock
