import Verif.Base.LTS

/-!
# The events on Windows

Source: include/boost/sync/detail/events/basic_event_windows.hpp 42-191; auto_reset_event_windows.hpp 29-61 and
manual_reset_event_windows.hpp 29-62 only forward to it.

Any number of threads use one event.  The OS event is a flag; each OS call is one atomic action and may fail.  Assumptions about the
OS: a wait succeeds only when the event is signalled and resets an auto-reset event in the same moment; a wait reports a timeout only
when the event is not signalled in that moment (a signalled event satisfies a waiting thread at once;
`WaitForMultipleObjects` reports the smallest index, i.e. the event before the timer).

Simplifications.
* Time is not represented, the scheduler decides when a wait times out and what the user's clock says.  Durations are the number
  of milliseconds after the conversion by `time_traits` (see `Verif.Model.Time`).
* `WaitForMultipleObjects` returns no values other than those for the event, the timer and a failure (lines 164-165: `BOOST_ASSERT(false)`).
-/

namespace Verif.WinEvent

/-- `set` (63-71), `reset` (73-81), `wait` (83-91), `try_wait` (93-106), the overloads of `timed_wait` (108-138, 140-169, 171-187). -/
inductive Op
  | set | reset | wait | tryWait | timedRel (ms : Int) | timedAbs | timedClock
  deriving DecidableEq, Repr

/-- How a call ends: `void` functions (63-91), the results of the others (93-187), an exception (69, 79, 89, 102, 131, 149, 156). -/
inductive Res
  | done | yes | no | threw
  deriving DecidableEq, Repr

/-- Where a thread is: outside, before the OS call of `set` (65), `reset` (75), `wait` (85), `try_wait` (95), `timed_wait` (118, with
`time_left`, and whether it was called at line 180), before the timer is set (144-146), in the wait of line 152, before the first and
the further calls of the user's clock (177, 182). -/
inductive PC
  | idle | set | reset | wait | tryWait
  | rel (left : Nat) (clk : Bool)
  | timer | abs | clock | clockAgain
  deriving DecidableEq, Repr

/-- A call begins; the OS call succeeds, reports a timeout, fails (65-67, 75-77, 85-86, 95-99, 118-129, 144-146, 152-153); the user's
clock says whether the time point is in the future and how long it takes (177-184). -/
inductive Act
  | call (op : Op) | go | timeout | fail | clock (before : Bool) (ms : Int)
  deriving DecidableEq, Repr

/-- Ghost: what happens to the OS event, and the calls and returns (lines 63-187). -/
inductive Ev
  | called (t : Nat) (op : Op) | didSet (t : Nat) | didReset (t : Nat) | took (t : Nat) | sawUnset (t : Nat) | ret (t : Nat) (r : Res)
  deriving DecidableEq, Repr

/-- `m_handle` (line 190): the state of the OS event; where the threads are (63-187). -/
structure St where
  flag : Bool
  ths : List PC
  deriving DecidableEq, Repr

/-- Line 50: the event is not signalled. -/
def init (n : Nat) : St := ⟨false, List.replicate n .idle⟩

/-- `boost::winapi::max_non_infinite_wait`, lines 116-117. -/
def maxWait : Nat := 0xFFFFFFFE

/-- Lines 110-112, `time_left` at the begin. -/
def clamp (ms : Int) : Nat := ms.toNat

/-- Line 125: `time_left` after a timeout. -/
def lessWait (left : Nat) : Nat := left - (if left > maxWait then maxWait else left)

/-- The functions of `basic_event`, one OS call per action; `manual` is the argument of the constructor (line 48). -/
def step (manual : Bool) : StepFn St (Nat × Act) Ev := fun s (t, a) =>
  match s.ths[t]? with
  | none => none
  | some pc =>
    let goto (pc' : PC) (es : List Ev) : Option (St × List Ev) := some ({ s with ths := s.ths.set t pc' }, es)
    let back (flag : Bool) (es : List Ev) (r : Res) : Option (St × List Ev) :=
      some (⟨flag, s.ths.set t .idle⟩, es ++ [.ret t r])
    let take : Option (St × List Ev) := if s.flag then back manual [.took t] (.yes) else none
    match pc, a with
    | .idle, .call op =>
      match op with
      | .set => goto .set [.called t op]
      -- only manual_reset_event has it
      | .reset => if manual then goto .reset [.called t op] else none
      | .wait => goto .wait [.called t op]
      | .tryWait => goto .tryWait [.called t op]
      | .timedRel ms => goto (.rel (clamp ms) false) [.called t op]
      | .timedAbs => goto .timer [.called t op]
      | .timedClock => goto .clock [.called t op]
    -- 63-71
    | .set, .go => back true [.didSet t] .done
    -- 73-81
    | .reset, .go => back false [.didReset t] .done
    -- 83-91
    | .wait, .go => if s.flag then back manual [.took t] .done else none
    -- 93-106
    | .tryWait, .go => take
    | .tryWait, .timeout => if s.flag then none else back s.flag [.sawUnset t] .no
    -- 114-137
    | .rel _ _, .go => take
    | .rel left clk, .timeout =>
      if s.flag then none
      else if lessWait left > 0 then goto (.rel (lessWait left) clk) [.sawUnset t]
      else if clk then goto .clockAgain [.sawUnset t]
      else back s.flag [.sawUnset t] .no
    -- 142-150
    | .timer, .go => goto .abs []
    -- 152-168
    | .abs, .go => take
    | .abs, .timeout => if s.flag then none else back s.flag [.sawUnset t] .no
    -- 177-182
    | .clock, .clock _ ms => goto (.rel (clamp ms) true) []
    -- 182-186
    | .clockAgain, .clock before ms => if before then goto (.rel (clamp ms) true) [] else back s.flag [] .no
    -- the OS calls fail
    | .set, .fail | .reset, .fail | .wait, .fail | .tryWait, .fail | .rel _ _, .fail | .timer, .fail | .abs, .fail =>
      back s.flag [] .threw
    | _, _ => none

end Verif.WinEvent
