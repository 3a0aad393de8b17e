import Verif.Base.LTS

/-!
# The loops around relative waits

Models one relative timed wait of `T` (in native units of the system: milliseconds on Windows, nanoseconds elsewhere), as seen
by the time it spends blocked in the system.  Kinds of loops:

* `deadline`: the deadline is computed once.  POSIX: timed_mutex_posix.hpp 205-244, condition_variable_posix.hpp 213-228,
  semaphore_posix.hpp 139-167.  The same loops serve absolute time points, as do auto_reset_event_futex.hpp 165-218 and
  manual_reset_event_futex.hpp 108-144 with the remaining time computed anew in each round.
* `chunks`: the wait is cut into pieces of at most `max_non_infinite_wait`; each wake-up is a success.  basic_event_windows.hpp
  108-138, semaphore_windows.hpp 115-145.
* `chunksRetry`: likewise, but a wake-up may turn out to be spurious and the loop goes on with the time left unchanged.
  timed_mutex_windows.hpp 163-208, basic_condition_variable_windows.hpp 357-410.
* `restart`: after a wake-up without success the loop waits for the whole duration again.  auto_reset_event_futex.hpp 220-274,
  manual_reset_event_futex.hpp 146-185, auto_reset_event_emulation.hpp 74-91, manual_reset_event_emulation.hpp 75-91,
  semaphore_emulation.hpp 70-87.

A time-out means that the whole requested time was spent blocked (delays of the scheduler after the time-out are not
counted), a wake-up that at most the requested time was.  Time may also pass between the waits.  The attempt made before the
first wait is not modelled here (it takes no time).  `BOOST_ASSERT`, errors: `fail`.  The value of
`boost::winapi::max_non_infinite_wait` is 0xFFFFFFFE and `INFINITE` 0xFFFFFFFF in Boost.WinAPI.
-/

namespace Verif.WaitLoop

/-- The kinds of loops, see the list of lines above (timed_mutex_posix.hpp 205-244 and so on). -/
inductive Kind
  | deadline | chunks | chunksRetry | restart
  deriving DecidableEq, Repr

/-- `boost::winapi::max_non_infinite_wait`, used in basic_event_windows.hpp 116-117 and the other loops in chunks. -/
def maxNonInfiniteWait : Int := 0xFFFFFFFE

/-- The local variables of the loops (e.g. basic_event_windows.hpp 110-137), and the time. -/
structure St where
  /-- `none` while in the loop -/
  result : Option Bool
  /-- `time_left` (of the chunked loops) -/
  left : Int
  /-- time since the start of the operation -/
  clock : Int
  deriving DecidableEq, Repr

/-- What the system does in the wait of a round (e.g. basic_event_windows.hpp 118-133, timed_mutex_windows.hpp 178-196,
auto_reset_event_futex.hpp 241-272). -/
inductive Act
  /-- the wait timed out; `ok`: the resource nevertheless turned out to be available in the final check (emulations,
  basic_condition_variable_windows.hpp 400-409, futex `on_wait_timed_out`) -/
  | timeout (ok : Bool)
  /-- the thread was woken (or interrupted, or the wait did not begin) after time `e`; `ok`: successfully -/
  | woken (e : Int) (ok : Bool)
  /-- error reported by the system -/
  | fail (e : Int)
  /-- time passes outside of waits -/
  | delay (d : Nat)
  deriving DecidableEq, Repr

/-- What is observed of a wait (e.g. basic_event_windows.hpp 118, 122, 131, 137). -/
inductive Ev
  /-- a wait with timeout `request` that blocked for `time` -/
  | wait (request time : Int) (timedOut : Bool)
  | ret (r : Bool)
  | threw
  deriving DecidableEq, Repr

/-- The value of the loop condition, or `if (time_left <= 0)` (auto_reset_event_futex.hpp 227, manual 156), before the first
wait: does the operation wait at all? -/
def enters (k : Kind) (T : Int) : Bool :=
  match k with
  | .deadline => true
  | .chunks => true                 -- do
  | .chunksRetry => decide (T > 0)  -- while (time_left > 0)
  | .restart => decide (T > 0)

/-- The begin: `if (time_left < 0) time_left = 0;` for `chunks` (basic_event_windows.hpp 110-112, semaphore_windows.hpp 117-119). -/
def start (k : Kind) (T : Int) : St :=
  ⟨if enters k T then none else some false, if k = .chunks ∧ T < 0 then 0 else T, 0⟩

/-- The timeout given to the system: basic_event_windows.hpp 116-118, semaphore_windows.hpp 123-125, timed_mutex_windows.hpp 176-178,
basic_condition_variable_windows.hpp 362-364; auto_reset_event_futex.hpp 241, manual_reset_event_futex.hpp 166 (whole duration);
timed_mutex_posix.hpp 207 (deadline computed once), auto_reset_event_futex.hpp 182-185, manual_reset_event_futex.hpp 117-127. -/
def request (k : Kind) (T : Int) (s : St) : Int :=
  match k with
  | .deadline => if T - s.clock < 0 then 0 else T - s.clock
  | .chunks | .chunksRetry => if s.left > maxNonInfiniteWait then maxNonInfiniteWait else s.left
  | .restart => T

/-- One round of a loop, or time passing outside of it; for the lines see the list above (basic_event_windows.hpp 114-137 and so on). -/
def step (k : Kind) (T : Int) : StepFn St Act Ev := fun s a =>
  match s.result with
  | some _ => none
  | none =>
    let r := request k T s
    match a with
    | .delay d => some ({ s with clock := s.clock + d }, [])
    | .timeout ok =>
      match k with
      | .chunks =>
        -- time_left -= dur; … while (time_left > 0); return false;
        if s.left - r > 0 then some ({ s with left := s.left - r, clock := s.clock + r }, [.wait r r true])
        else some (⟨some false, s.left - r, s.clock + r⟩, [.wait r r true, .ret false])
      | .chunksRetry =>
        if s.left - r > 0 then some ({ s with left := s.left - r, clock := s.clock + r }, [.wait r r true])
        else some (⟨some ok, s.left - r, s.clock + r⟩, [.wait r r true, .ret ok])
      | _ => some (⟨some ok, s.left, s.clock + r⟩, [.wait r r true, .ret ok])
    | .woken e ok =>
      if 0 ≤ e ∧ e ≤ r then
        if ok then some (⟨some true, s.left, s.clock + e⟩, [.wait r e false, .ret true])
        else match k with
          | .chunks => none
          | _ => some ({ s with clock := s.clock + e }, [.wait r e false])
      else none
    | .fail e =>
      if 0 ≤ e ∧ e ≤ r then some (⟨some false, s.left, s.clock + e⟩, [.wait r e false, .threw]) else none

end Verif.WaitLoop
