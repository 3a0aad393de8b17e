import Verif.Model.WinCondVar

/-!
# The Windows condition variable when locks cannot be locked

Source: include/boost/sync/detail/condition_variables/basic_condition_variable_windows.hpp 107-131, 170-237, 284-469.

`Verif.WinCv` with further failures: `m_internal_mutex.lock()` throws (mutexes/basic_mutex_windows.hpp 76-80, 159-184: creating
the event or waiting for it fails, after the mutex was found locked), or the user's lock throws when it is locked again.  What the exception does on its way is what the code does not say
explicitly: destructors of `lock_guard` and `relocker`, and `std::terminate` where a second exception or a function declared noexcept is
met.  Simplification: the internal mutex may fail at any time, not only after it was found locked.
-/

namespace Verif.WinCvFail

open Verif.WinCv (PC)

/-- What happens next: an action of `Verif.WinCv`, or the lock that the thread is about to lock throws. -/
inductive Act
  | base (a : WinCv.Act)
  | lockFails
  deriving DecidableEq, Repr

/-- What is observed (lines 170-237). -/
inductive Ev
  | ev (e : WinCv.Ev)
  /-- thread `t` leaves the function without having removed itself from the counters (lines 336, 346, 369, 388, 400, 425, 439, 452) -/
  | abandoned (t : Nat)
  /-- the wait is left by an exception of the user's lock (lines 118-122) -/
  | relockThrew (t : Nat)
  /-- `std::terminate` -/
  | terminated (t : Nat)
  deriving DecidableEq, Repr

/-- The condition variable, the user's lock and the threads (lines 133-142). -/
structure St where
  cv : WinCv.St
  /-- the process has ended -/
  dead : Bool
  deriving DecidableEq, Repr

/-- Lines 145-148: the constructor. -/
def init (n : Nat) : St := ⟨WinCv.init n, false⟩

/-- One atomic action of thread `t`, or the failure of the lock of lines 286, 174, 186, 336, 346, 369, 388, 400, 425, 439, 452 or 121. -/
def step : StepFn St (Nat × Act) Ev := fun s (t, a) =>
  if s.dead then none
  else match a with
  | .base a => (WinCv.step s.cv (t, a)).map fun r => (⟨r.1, false⟩, r.2.map .ev)
  | .lockFails =>
    let goto (pc : PC) (es : List Ev) : Option (St × List Ev) := some (⟨{ s.cv with ths := s.cv.ths.set t pc }, false⟩, es)
    match s.cv.ths[t]? with
    -- line 286: the user's lock has not been unlocked
    | some (.wEnter _) => goto .idle [.ev (.ret t .threw)]
    -- lines 346, 369, 439; 400, 452; 336, 388, 425: `~relocker` comes next
    | some (.gotTok _ _) => goto (.relock .threw) [.abandoned t]
    | some (.expired _) => goto (.relock .threw) [.abandoned t]
    | some (.failed _) => goto (.relock .threw) [.abandoned t]
    -- lines 170, 182: noexcept
    | some (.nEnter _) => some (⟨s.cv, true⟩, [.terminated t])
    -- line 121: thrown while an exception is on its way, or by the destructor alone (line 118: `BOOST_NOEXCEPT_IF(false)`)
    | some (.relock .threw) => some (⟨s.cv, true⟩, [.terminated t])
    | some (.relock _) => goto .idle [.relockThrew t]
    | _ => none

end Verif.WinCvFail
