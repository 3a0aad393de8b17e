/-!
# Time arithmetic

Models `system_duration` and `system_time_point` of include/boost/sync/detail/time_units.hpp, the conversions of user
durations in include/boost/sync/support/{std_chrono,boost_chrono,boost_date_time,posix_time}.hpp, and
`futex_timedwait` (include/boost/sync/detail/futex.hpp 71-77).

C++ integers are mathematical integers here together with the conversions C++ performs: `toU64` and `toS64` are the
conversions to `uint64_t` and `int64_t`, operations on `uint64_t` are taken modulo 2^64, operations on `int64_t` yield
`none` (undefined behaviour) if the result does not fit.  `time_t` and `long` are 64 bits wide (LP64).
-/

namespace Verif.Time

/-- Conversion to `uint64_t` (e.g. of the operands in time_units.hpp 175-176, 199, 206, 230). -/
def toU64 (x : Int) : Int := x % 2 ^ 64

/-- Conversion to `int64_t` (modular, as all compilers and C++20 define it; e.g. of the results in time_units.hpp 175-176, 199, 230). -/
def toS64 (x : Int) : Int := (x + 2 ^ 63) % 2 ^ 64 - 2 ^ 63

/-- The value is an `int64_t` (`system_duration::native_type`, time_units.hpp 42). -/
def InS64 (x : Int) : Prop := -2 ^ 63 ≤ x ∧ x < 2 ^ 63

/-- Whether a value is an `int64_t` can be decided (as in `signed`; time_units.hpp 42). -/
instance (x : Int) : Decidable (InS64 x) := inferInstanceAs (Decidable (_ ∧ _))

/-- The value is a `uint64_t` (`subsecond_fraction` and the Windows time point, time_units.hpp 49, 93). -/
def InU64 (x : Int) : Prop := 0 ≤ x ∧ x < 2 ^ 64

/-- Whether a value is a `uint64_t` can be decided (time_units.hpp 49, 93). -/
instance (x : Int) : Decidable (InU64 x) := inferInstanceAs (Decidable (_ ∧ _))

/-- A signed 64-bit operation with mathematical result `x` (e.g. time_units.hpp 63, 68, 73, 198, 228-229); overflow is undefined
behaviour. -/
def signed (x : Int) : Option Int := if InS64 x then some x else none

/-- `system_duration::subsecond_fraction`, an `uint64_t`; time_units.hpp line 49. -/
def FRAC : Int := 1000000000

/-! ## POSIX: time_units.hpp 153-232 -/

/-- `struct timespec`, the native type of time points (time_units.hpp 156, 162). -/
structure Timespec where
  sec : Int
  nsec : Int
  deriving DecidableEq, Repr

/-- `system_time_point::operator+=(system_duration)`, lines 196-209.  `nsec` is an `int64_t`, `subsecond_fraction` an
`uint64_t`: the operands of `%` and `/` are converted to `uint64_t`. -/
def add (t : Timespec) (dur : Int) : Option Timespec := do
  let nsec ← signed (t.nsec + dur)
  let tv_nsec := toS64 (toU64 nsec % FRAC)
  let (tv_nsec, sec) ←
    if tv_nsec < 0 then do
      let sec ← signed (t.sec - 1)
      pure (toS64 (toU64 (toU64 tv_nsec + FRAC)), sec)
    else pure (tv_nsec, t.sec)
  pure ⟨toS64 (toU64 (toU64 sec + toU64 nsec / FRAC)), tv_nsec⟩

/-- `operator-=(system_duration)`, lines 210-213. -/
def sub (t : Timespec) (dur : Int) : Option Timespec := do
  let m ← signed (-dur)
  add t m

/-- `system_time_point(system_duration)`, lines 173-177. -/
def ofDuration (dur : Int) : Timespec := ⟨toS64 (toU64 dur / FRAC), toS64 (toU64 dur % FRAC)⟩

/-- `operator-(system_time_point, system_time_point)`, lines 226-231. -/
def diff (a b : Timespec) : Option Int := do
  let seconds ← signed (a.sec - b.sec)
  let nseconds ← signed (a.nsec - b.nsec)
  pure (toS64 (toU64 (toU64 (toU64 seconds * FRAC) + toU64 nseconds)))

/-! ## Windows: time_units.hpp 88-149; time points count 100 ns units in an `uint64_t`, durations milliseconds -/

/-- `operator+=`, lines 123-127: `m_value += dur.get() * 10000u`; the product is an `int64_t`. -/
def winAdd (t dur : Int) : Option Int := do
  let p ← signed (dur * 10000)
  pure (toU64 (t + toU64 p))

/-- `operator-=`, lines 128-132. -/
def winSub (t dur : Int) : Option Int := do
  let p ← signed (dur * 10000)
  pure (toU64 (t - toU64 p))

/-- `system_time_point(system_duration)`, lines 109-112. -/
def winOfDuration (dur : Int) : Option Int := do
  let p ← signed (dur * 10000)
  pure (toU64 (toU64 p + 116444736000000000))

/-- `system_time_point(time_t, unsigned int)`, lines 103-106. -/
def winOfTimeT (t subsecond : Int) : Int :=
  toU64 (toU64 (toU64 (toU64 t * 10000000) + subsecond) + 116444736000000000)

/-- `operator-(system_time_point, system_time_point)`, line 147; the division is one of `int64_t`, i.e. truncating. -/
def winDiff (a b : Int) : Int := (toS64 (toU64 (a - b))).tdiv 10000

/-! ## Conversion of user durations -/

/-- `time_traits< chrono::duration< Rep, Period > >::to_sync_unit`, std_chrono.hpp 41-45, boost_chrono.hpp 43-47, for integral
`Rep` and `Period = ratio<num, den>`: `duration_cast` multiplies by the reduced numerator of `Period / ratio<1, frac>` and
divides by its denominator in 64-bit arithmetic. -/
def ofChrono (frac num den : Nat) (count : Int) : Option Int := do
  let g := Nat.gcd (num * frac) den
  let p ← signed (count * (num * frac / g : Nat))
  pure (p.tdiv (den / g : Nat))

/-- `time_traits< date_time duration >::to_sync_unit`, boost_date_time.hpp 42-55: the ratio is an integer computed by an
integer division. -/
def ofDateTime (frac ticksPerSecond : Nat) (ticks : Int) : Option Int :=
  if ticksPerSecond ≥ frac then some (ticks.tdiv (ticksPerSecond / frac : Nat))
  else signed (ticks * (frac / ticksPerSecond : Nat))

/-- `time_traits< timespec >::to_sync_unit` on POSIX, posix_time.hpp 41-51, and `system_time_point(time_t, unsigned int)`,
time_units.hpp 166-170: `tv_nsec` is converted to `unsigned int`. -/
def ofTimespec (t : Timespec) : Timespec := ⟨t.sec, t.nsec % 2 ^ 32⟩

/-! ## futex.hpp 71-77 -/

/-- The timeout handed to the kernel by `futex_timedwait`, futex.hpp 71-77; `timeout_nsec` is an `uint64_t`, the argument an `int64_t`. -/
def futexTimeout (time_left : Int) : Timespec :=
  ⟨toS64 (toU64 time_left / 1000000000), toS64 (toU64 time_left % 1000000000)⟩

/-! ## Relative waits: what is asked of the system -/

/-- The request a relative wait of `dur` makes to the system, before any loop (timed_mutex_posix.hpp 205-220,
auto_reset_event_futex.hpp 220-241, basic_event_windows.hpp 108-118, semaphore_dispatch.hpp 95-116, basic_semaphore_mach.hpp 102-126;
for the others see `Impl`). -/
inductive Request
  /-- no wait at all -/
  | nothing
  /-- wait at most so many native units -/
  | relative (n : Int)
  /-- wait until this point of the system clock -/
  | absolute (t : Timespec)
  deriving DecidableEq, Repr

/-- The implementations of relative waits (auto_reset_event_futex.hpp 226-241 and so on), with the lines in which they treat the
duration. -/
inductive Impl
  /-- `timed_mutex` (205-208), `condition_variable` (213-217), `semaphore` (139-142) on POSIX:
  `priv_timed_...(system_time_point::now() + dur)` -/
  | posix
  /-- events on futexes, auto_reset_event_futex.hpp 227, manual_reset_event_futex.hpp 156:
  `if (time_left <= 0) return false;` -/
  | futex
  /-- events and semaphore on Windows, basic_event_windows.hpp 111-112, semaphore_windows.hpp 118-119:
  `if (time_left < 0) time_left = 0;` -/
  | windows
  /-- semaphore_dispatch.hpp 97-114: `DISPATCH_TIME_NOW` unless `time_left > 0` -/
  | dispatch
  /-- basic_semaphore_mach.hpp 104-106: `if (time_left < 0) time_left = 0;` -/
  | mach
  deriving DecidableEq, Repr

/-- The request made by a relative wait of `dur` that starts at time `now`; for the lines see `Impl`.  `nothing`:
auto_reset_event_futex.hpp 227, manual_reset_event_futex.hpp 156-160. -/
def request (i : Impl) (now : Timespec) (dur : Int) : Option Request :=
  match i with
  | .posix => (add now dur).map .absolute
  | .futex => some (if dur ≤ 0 then .nothing else .relative dur)
  | .windows => some (.relative (if dur < 0 then 0 else dur))
  | .dispatch => some (if dur > 0 then .relative dur else .relative 0)
  | .mach => some (.relative (if dur < 0 then 0 else dur))

/-- The wait time passed to the Mach kernel, basic_semaphore_mach.hpp 102-127: `tv_sec` is converted to `unsigned int`. -/
def machTimeout (dur : Int) : Timespec :=
  let time_left := if dur < 0 then 0 else dur
  ⟨(toS64 (toU64 time_left / FRAC)) % 2 ^ 32, toS64 (toU64 time_left % FRAC)⟩

end Verif.Time
