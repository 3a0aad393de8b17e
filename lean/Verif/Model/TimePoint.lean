import Verif.Model.Time

/-!
# Time points given by the user, as they reach the system

Models the conversions of time points: support/std_chrono.hpp 63-80, support/boost_chrono.hpp 65-79, support/boost_date_time.hpp 58-75,
support/posix_time.hpp 33-52, followed by the constructors of `system_time_point` (detail/time_units.hpp 103-112, 166-177), and on Windows by
`SetWaitableTimer` (basic_event_windows.hpp 146, semaphore_windows.hpp 153, timed_mutex_windows.hpp 124, basic_condition_variable_windows.hpp
226).

Simplifications: the representation of chrono durations is a 64-bit integer; the distance of a date_time time point from 1970 (boost_date_time.hpp
72) is taken to be computed exactly by Boost.DateTime.
-/

namespace Verif.TimePoint

open Verif.Time

/-- A time point of the user. -/
inductive Point
  /-- of `system_clock`, `count` ticks of `num/den` seconds since 1970: std_chrono.hpp 63-80, boost_chrono.hpp 65-79 -/
  | chrono (num den : Nat) (count : Int)
  /-- the same when the clock counts from another time, `offset` seconds after 1970 (`BOOST_SYNC_DETAIL_STD_CHRONO_TIME_T_MISMATCH`, std_chrono.hpp
  75-78) -/
  | chronoFrom (offset : Int) (num den : Nat) (count : Int)
  /-- of Boost.DateTime, `ticks` since 1970: boost_date_time.hpp 58-75 -/
  | dateTime (ticksPerSecond : Nat) (ticks : Int)
  /-- `timespec`: posix_time.hpp 33-52 -/
  | timespec (t : Timespec)
  deriving DecidableEq, Repr

/-- The `system_duration` since 1970 in units of `1/frac` seconds: std_chrono.hpp 74-79, boost_chrono.hpp 76, boost_date_time.hpp 72-73.  In std_chrono.hpp 77
a number of seconds is added; the sum is passed on as a duration with the ticks of the time point, which compiles only if a second is a whole
number of ticks.  `none`: overflow of a signed integer, or the program does not compile. -/
def since1970 (frac : Nat) : Point → Option Int
  | .chrono num den count => ofChrono frac num den count
  | .chronoFrom offset num den count =>
    if num ∣ den then do
      let o ← signed (offset * (den / num : Nat))
      let c ← signed (count + o)
      ofChrono frac num den c
    else none
  | .dateTime tps ticks => ofDateTime frac tps ticks
  | .timespec _ => none

/-- `to_sync_unit` on POSIX: std_chrono.hpp 70-79, boost_chrono.hpp 72-77, boost_date_time.hpp 65-74, posix_time.hpp 41-51. -/
def posix : Point → Option Timespec
  | .timespec t => some (ofTimespec t)
  | p => (since1970 1000000000 p).map ofDuration

/-- `to_sync_unit` on Windows: the same lines; units of 100 ns since 1601.  A `timespec` is divided by 100 (posix_time.hpp 43-50). -/
def win : Point → Option Int
  | .timespec t => some (winOfTimeT t.sec ((t.nsec / 100) % 2 ^ 32))
  | p => (since1970 1000 p).bind winOfDuration

/-- How `SetWaitableTimer` understands the 64 bits (`reinterpret_cast< const LARGE_INTEGER_* >`, basic_event_windows.hpp 146, semaphore_windows.hpp 153,
timed_mutex_windows.hpp 124, basic_condition_variable_windows.hpp 226): a positive number is a time in units of 100 ns since 1601, a negative one a duration
from now. -/
inductive Timer
  | at (t : Int)
  | after (d : Int)
  deriving DecidableEq, Repr

/-- The timer that is set (lines as in `Timer`: basic_event_windows.hpp 146). -/
def winTimer (v : Int) : Timer := if v < 2 ^ 63 then .at v else .after (2 ^ 64 - v)

end Verif.TimePoint
