import Verif.Spec.SyncObjects

/-!
# auto_reset_event on top of a semaphore

Source: include/boost/sync/detail/events/auto_reset_event_semaphore.hpp 39-111.

One atomic action per access to `m_state` or `m_sem`.

Simplifications.
* `m_sem` is an atomic counter of permits (what its own implementations are is the subject of C32, C33, C69, C70); a timed
  wait of it fails only when the counter is zero.
* `m_state` is an integer; `C24_state_range` shows that it stays within `int32_t` for fewer than 2^31 - 1 threads
  and failed or thrown waits.
* The waits of `m_sem` may throw (action `fail`, lines 69, 76, 89); nothing in the code undoes the increment of `m_state` then.
  `post` is `noexcept` (line 43): a failing `m_sem.post()` ends the program and is not modelled.  Interruption of `try_wait` is
  the subject of C69.
* Memory orders are not represented (sequential consistency).
-/

namespace Verif.AutoSem

open Verif.Atomic (Kind Op Ev One)

/-- Where a thread is: outside (`idle`), in `post` (lines 43-64), `wait` (66-70), `try_wait` (72-82) or `timed_wait` (84-95; `wait_for`
and `wait_until` 97-107 forward to it). -/
inductive PC
  | idle
  /-- line 45: `m_state.load` -/
  | pLoad
  /-- line 50: `compare_exchange_weak(old, old - 1)` -/
  | pCas (old : Int)
  /-- line 52: `m_sem.post()` -/
  | pSem
  /-- lines 68, 74, 87: `m_state.fetch_add(1)` -/
  | wAdd (k : Kind)
  /-- lines 69, 76, 89: the wait of `m_sem` -/
  | wSem (k : Kind)
  /-- lines 80, 93: `m_state.fetch_add(-1)` -/
  | wSub (k : Kind)
  /-- lines 64, 70, 78, 81, 91, 94: the call returns -/
  | leave (op : Op One) (res : Bool)
  deriving DecidableEq, Repr

/-- The members (lines 110-111) and the threads. -/
structure St where
  /-- `m_state` -/
  state : Int
  /-- permits of `m_sem` -/
  sem : Nat
  ths : List PC
  deriving DecidableEq, Repr

/-- What happens next: a call (lines 43-107), the next access of the code, a spurious failure of line 50, the time-out of line 89, an exception
from lines 69, 76 or 89. -/
inductive Act
  | call (op : Op One)
  | go
  /-- the weak compare-exchange fails spuriously -/
  | spurious
  | timeout
  /-- the wait of `m_sem` throws -/
  | fail
  deriving DecidableEq, Repr

/-- Lines 39-41: the constructor. -/
def init (n : Nat) : St := ⟨0, 0, List.replicate n .idle⟩

/-- Lines 46-63: what `post` does after it has seen the value `v`: try to decrement, or nothing but a fence if negative. -/
def seen (v : Int) : PC := if v ≥ 0 then .pCas v else .leave (.sig .post) true

/-- One atomic action of thread `t` (lines 43-95). -/
def step : StepFn St (Nat × Act) (Ev One) := fun s (t, a) =>
  match s.ths[t]? with
  | none => none
  | some pc =>
    let goto (pc' : PC) (es : List (Ev One)) : Option (St × List (Ev One)) := some ({ s with ths := s.ths.set t pc' }, es)
    match pc, a with
    | .idle, .call (.sig .post) => goto .pLoad [.called t (.sig .post)]
    | .idle, .call (.acq k) => goto (.wAdd k) [.called t (.acq k)]
    | .pLoad, .go => goto (seen s.state) []
    | .pCas old, .go =>
      if s.state = old then some (⟨old - 1, s.sem, s.ths.set t .pSem⟩, []) else goto (seen s.state) []
    | .pCas _, .spurious => goto (seen s.state) []
    | .pSem, .go => some (⟨s.state, s.sem + 1, s.ths.set t (.leave (.sig .post) true)⟩, [])
    | .wAdd k, .go => some (⟨s.state + 1, s.sem, s.ths.set t (.wSem k)⟩, [])
    | .wSem k, .go =>
      if 0 < s.sem then some (⟨s.state, s.sem - 1, s.ths.set t (.leave (.acq k) true)⟩, [])
      else match k with
        | .tryWait => goto (.wSub .tryWait) []
        | _ => none
    | .wSem .timed, .timeout => if s.sem = 0 then goto (.wSub .timed) [.timedOut t] else none
    | .wSem k, .fail => goto .idle [.threw t (.acq k)]
    | .wSub k, .go => some (⟨s.state - 1, s.sem, s.ths.set t (.leave (.acq k) false)⟩, [])
    | .leave op res, .go => goto .idle [.ret t op res]
    | _, _ => none

end Verif.AutoSem
