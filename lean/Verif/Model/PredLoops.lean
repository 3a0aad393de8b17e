import Verif.Base.LTS

/-!
# Predicate overloads of the condition variables

Models the loops around a wait in

* `detail/condition_variables/condition_variable_posix.hpp`: `wait` 106-113, `timed_wait` 123-136 (time point), 138-150
  (duration), `wait_until` 160-173, `wait_for` 183-195,
* `detail/condition_variables/condition_variable_windows.hpp`: `wait` 73-79, `timed_wait` 89-102, 104-116, `wait_until`
  126-139, `wait_for` 149-161,
* `detail/condition_variables/condition_variable_any_windows.hpp`: `wait` 68-73, `timed_wait` 82-94, 96-107, `wait_until`
  116-128, `wait_for` 137-148,
* `detail/condition_variables/condition_variable_any_generic.hpp`: `wait` 99-104, `timed_wait` 116-126, `wait_until`
  138-148, `wait_for` 160-170.

(all under `include/boost/sync`).  The state is the point in the function where one call has arrived.  The predicate, the
system clock and the inner wait are answered by the environment (the inputs).  Time is an integer number of units; the
overflow of time arithmetic is the subject of `Verif.Model.Time`.
-/

namespace Verif.PredLoop

/-- The shapes of the loops (condition_variable_posix.hpp 106-195, condition_variable_windows.hpp 73-161, condition_variable_any_windows.hpp 68-148,
condition_variable_any_generic.hpp 99-170). -/
inductive Overload
  /-- `wait(lock, pred)` in all four files -/
  | untimed
  /-- `timed_wait`/`wait_until` with a time point in all four files: the wait of each round has the same deadline -/
  | absolute (deadline : Int)
  /-- `timed_wait`/`wait_for` with a duration in condition_variable_posix.hpp, condition_variable_windows.hpp and
  condition_variable_any_windows.hpp: `abs_timeout = now() + duration` is computed before the loop -/
  | relOnce (dur : Int)
  /-- `timed_wait`/`wait_for` with a duration in condition_variable_any_generic.hpp: the duration is passed to the wait of
  each round, which computes `now() + duration` (condition_variable_posix.hpp line 216) -/
  | relEach (dur : Int)
  deriving DecidableEq, Repr

/-- Where a call is (condition_variable_posix.hpp 106-195, condition_variable_windows.hpp 73-161, condition_variable_any_windows.hpp 68-148,
condition_variable_any_generic.hpp 99-170). -/
inductive PC
  /-- reading the clock before the loop -/
  | start
  /-- the condition `while (!pred())` -/
  | test (limit : Option Int)
  /-- the wait of this round reads the clock -/
  | clock
  /-- inside the wait -/
  | sleep (limit : Option Int)
  /-- `return pred();` after a time-out -/
  | last
  | done
  deriving DecidableEq, Repr

/-- Answers of the environment to the calls made by
condition_variable_posix.hpp 106-195, condition_variable_windows.hpp 73-161, condition_variable_any_windows.hpp 68-148,
condition_variable_any_generic.hpp 99-170. -/
inductive In
  | now (c : Int)
  | pred (b : Bool)
  /-- the predicate throws -/
  | predThrows
  /-- the wait returns `no_timeout` (a notification or a spurious wake-up) -/
  | woke
  | timedOut
  | waitThrows
  deriving DecidableEq, Repr

/-- What is observed of the calls of condition_variable_posix.hpp 106-195, condition_variable_windows.hpp 73-161, condition_variable_any_windows.hpp 68-148,
condition_variable_any_generic.hpp 99-170. -/
inductive Ev
  | clock (c : Int)
  | pred (b : Bool)
  /-- a wait begins that ends at the given time at the latest, or has no limit -/
  | waits (limit : Option Int)
  /-- the wait ends -/
  | woke
  | timedOut
  /-- the call returns; `wait` returns nothing, which is shown as `true` -/
  | ret (b : Bool)
  | threw
  deriving DecidableEq, Repr

/-- The begin of a call (condition_variable_posix.hpp 106-195, condition_variable_windows.hpp 73-161, condition_variable_any_windows.hpp 68-148,
condition_variable_any_generic.hpp 99-170). -/
def Overload.init : Overload → PC
  | .untimed => .test none
  | .absolute d => .test (some d)
  | .relOnce _ => .start
  | .relEach _ => .test none

/-- One interaction (condition_variable_posix.hpp 106-195, condition_variable_windows.hpp 73-161, condition_variable_any_windows.hpp 68-148,
condition_variable_any_generic.hpp 99-170). -/
def step (o : Overload) : StepFn PC In Ev := fun pc i =>
  match pc, i with
  -- condition_variable_posix.hpp lines 143, 188
  | .start, .now c =>
    match o with
    | .relOnce d => some (.test (some (c + d)), [.clock c])
    | _ => none
  -- `while (!pred())` and `return true;`
  | .test _, .pred true => some (.done, [.pred true, .ret true])
  | .test l, .pred false =>
    match o with
    | .relEach _ => some (.clock, [.pred false])
    | _ => some (.sleep l, [.pred false, .waits l])
  | .test _, .predThrows => some (.done, [.threw])
  -- condition_variable_posix.hpp line 216
  | .clock, .now c =>
    match o with
    | .relEach d => some (.sleep (some (c + d)), [.clock c, .waits (some (c + d))])
    | _ => none
  | .sleep l, .woke => some (.test l, [.woke])
  | .sleep (some _), .timedOut => some (.last, [.timedOut])
  | .sleep _, .waitThrows => some (.done, [.threw])
  -- `return pred();`
  | .last, .pred b => some (.done, [.pred b, .ret b])
  | .last, .predThrows => some (.done, [.threw])
  | _, _ => none

end Verif.PredLoop
