import Verif.Base.LTS

/-!
# Generic condition_variable_any

Models `include/boost/sync/detail/condition_variables/condition_variable_any_generic.hpp` (lines 41-174): the class
`relocker` (44-64), `notify_one` (78-82), `notify_all` (84-88), `wait` (90-97), `timed_wait` (106-114), `wait_until`
(128-136) and `wait_for` (150-158), on top of `condition_variable` for pthreads
(`condition_variable_posix.hpp`: `priv_wait` 206-211, `priv_timed_wait` 213-244) and `mutex`.

A state consists of the owner of the user's lock, the owner of the internal mutex `m_mutex` and one program counter per
thread; a thread sleeps in `m_cond` iff its program counter is `blocked`.

* The three overloads of the wait inside `m_cond` are `plain` (no time limit), `timed` (a relative duration or a system
  time point: one call of `pthread_cond_timedwait`) and `clocked` (a time point of a user's clock: the loop of lines
  230-244 of condition_variable_posix.hpp, whose clock readings are arbitrary, hence a free choice of the label).
* Locking the internal mutex, unlocking the user's lock, waiting and locking the user's lock again may throw (the labels
  `fail`).  Unlocking the internal mutex does not throw (`mutex_posix.hpp` `unlock` is noexcept).
* Threads call `wait` only while they hold the user's lock (documented precondition).
* The user's lock is an exclusive lock and all threads use the same one.
* The predicate overloads are modelled in `Verif.Model.PredLoops`.
-/

namespace Verif.CvAny

/-- Which wait of `m_cond` is called (lines 96, 113, 135, 157). -/
inductive Kind
  /-- `m_cond.wait` (line 96) -/
  | plain
  /-- `m_cond.timed_wait`/`wait_for`/`wait_until` with a duration or a system time point -/
  | timed
  /-- the same with a time point of a user's clock -/
  | clocked
  deriving DecidableEq, Repr

/-- How a call of wait ends (lines 97, 114, 136, 158). -/
inductive Res
  | ok
  | timeout
  /-- an exception from locking `m_mutex`, unlocking the user's lock or waiting -/
  | threw
  /-- the user's lock could not be locked again (`~relocker`, lines 53-57, declared noexcept(false)) -/
  | relockThrew
  deriving DecidableEq, Repr

/-- Where a thread is: outside (`idle`), in a wait (`w…`: lines 90-97, and likewise 106-114, 128-136, 150-158) or in a notification
(`n…`: 78-88). -/
inductive PC
  | idle
  /-- line 94: constructing `internal_lock` -/
  | wLock (k : Kind)
  /-- line 95: `relock_guard.unlock(lock)`, the internal mutex is held -/
  | wRelease (k : Kind)
  /-- line 96: about to call `pthread_cond_wait`/`pthread_cond_timedwait`, the internal mutex is held -/
  | wBlock (k : Kind)
  /-- asleep in the condition variable -/
  | blocked (k : Kind)
  /-- inside `pthread_cond_*wait`, awake, locking the internal mutex again -/
  | wake (k : Kind) (r : Res)
  /-- the clock loop reads the clock, before the first sleep and after each time-out; the internal mutex is held
  (condition_variable_posix.hpp lines 236, 241) -/
  | wClock
  /-- the end of the scope: `~unique_lock` unlocks the internal mutex -/
  | wExit (r : Res)
  /-- `~relocker` locks the user's lock -/
  | wRelock (r : Res)
  /-- `~unique_lock` during unwinding from `relock_guard.unlock`, `m_lock` is NULL -/
  | wUnwind
  /-- lines 80, 86 -/
  | nLock (all : Bool)
  /-- lines 81, 87 -/
  | nSignal (all : Bool)
  /-- lines 82, 88: `~lock_guard` -/
  | nUnlock
  /-- `std::terminate`: the relocker threw during unwinding -/
  | dead
  deriving DecidableEq, Repr

/-- The members (lines 67-68), the user's lock and the threads. -/
structure St where
  /-- the owner of the user's lock -/
  user : Option Nat
  /-- the owner of `m_mutex` (line 67) -/
  int : Option Nat
  ths : List PC
  deriving DecidableEq, Repr

/-- What is observed of the calls (lines 78-97) and of the user's lock (lines 56, 61). -/
inductive Ev
  /-- the user locks, or unlocks, the user's lock outside of wait -/
  | locked (t : Nat)
  | unlocked (t : Nat)
  /-- wait is called -/
  | called (t : Nat) (k : Kind)
  /-- wait releases the user's lock (line 61) -/
  | released (t : Nat)
  /-- wait locks the user's lock again (line 56) -/
  | relocked (t : Nat)
  /-- wait returns or throws -/
  | ret (t : Nat) (r : Res)
  /-- notify_one or notify_all is called, takes effect on the sleepers `ws`, returns normally or throws -/
  | notifying (t : Nat) (all : Bool)
  | notified (t : Nat) (all : Bool) (ws : List Nat)
  | notifyRet (t : Nat) (ok : Bool)
  | terminated (t : Nat)
  deriving DecidableEq, Repr

/-- What happens next: the user's code, the next operation of lines 53-97, its failure, or a choice of the system. -/
inductive Act
  | lockUser
  | unlockUser
  | wait (k : Kind)
  | notify (all : Bool)
  | go
  /-- the operation throws -/
  | fail
  /-- the system ends the sleep -/
  | spurious
  | timeout
  /-- the clock of the user is still before the deadline -/
  | again
  /-- `pthread_cond_signal` wakes this thread -/
  | wakes (u : Nat)
  deriving DecidableEq, Repr

/-- Asleep in the call of line 96 (113, 135, 157). -/
def PC.isBlocked : PC → Bool
  | .blocked _ => true
  | _ => false

/-- What `pthread_cond_broadcast` (line 87, condition_variable_posix.hpp 94-97) does to each thread. -/
def PC.wakeUp : PC → PC
  | .blocked k => .wake k .ok
  | p => p

/-- The threads asleep in `m_cond` (line 68). -/
def sleepers (ths : List PC) : List Nat :=
  (List.range ths.length).filter fun i => match ths[i]? with | some p => p.isBlocked | none => false

/-- Lines 73-75: the constructor. -/
def init (n : Nat) : St := { user := none, int := none, ths := List.replicate n .idle }

/-- One atomic action of thread `t` (lines 53-97; 106-114, 128-136, 150-158 differ only in the call of `m_cond`). -/
def step : StepFn St (Nat × Act) Ev := fun s (t, a) =>
  match s.ths[t]? with
  | none => none
  | some pc =>
    let goto (pc' : PC) (es : List Ev) : Option (St × List Ev) := some ({ s with ths := s.ths.set t pc' }, es)
    match pc, a with
    -- the user's code
    | .idle, .lockUser => if s.user = none then some ({ s with user := some t }, [.locked t]) else none
    | .idle, .unlockUser => if s.user = some t then some ({ s with user := none }, [.unlocked t]) else none
    | .idle, .wait k => if s.user = some t then goto (.wLock k) [.called t k] else none
    | .idle, .notify all => goto (.nLock all) [.notifying t all]
    -- line 94
    | .wLock k, .go =>
      if s.int = none then some ({ s with int := some t, ths := s.ths.set t (.wRelease k) }, []) else none
    | .wLock _, .fail => goto .idle [.ret t .threw]
    -- line 95, 59-63
    | .wRelease k, .go =>
      some ({ s with user := none, ths := s.ths.set t (if k = .clocked then .wClock else .wBlock k) }, [.released t])
    | .wRelease _, .fail => goto .wUnwind []
    | .wUnwind, .go => some ({ s with int := none, ths := s.ths.set t .idle }, [.ret t .threw])
    -- line 96: the mutex is released and the thread put to sleep in one step
    | .wBlock k, .go => some ({ s with int := none, ths := s.ths.set t (.blocked k) }, [])
    -- an error is reported before any change
    | .wBlock _, .fail => goto (.wExit .threw) []
    | .blocked k, .spurious => goto (.wake k .ok) []
    | .blocked .timed, .timeout => goto (.wake .timed .timeout) []
    | .blocked .clocked, .timeout => goto (.wake .clocked .timeout) []
    | .wake k r, .go =>
      if s.int = none then
        some ({ s with int := some t,
                       ths := s.ths.set t (if k = .clocked ∧ r = .timeout then .wClock else .wExit r) }, [])
      else none
    -- condition_variable_posix.hpp lines 236-243
    | .wClock, .again => goto (.wBlock .clocked) []
    | .wClock, .go => goto (.wExit .timeout) []
    -- line 97
    | .wExit r, .go => some ({ s with int := none, ths := s.ths.set t (.wRelock r) }, [])
    -- lines 53-57
    | .wRelock r, .go =>
      if s.user = none then
        some ({ s with user := some t, ths := s.ths.set t .idle }, [.relocked t, .ret t r])
      else none
    | .wRelock r, .fail =>
      if r = .threw then goto .dead [.terminated t] else goto .idle [.ret t .relockThrew]
    -- lines 80, 86
    | .nLock all, .go =>
      if s.int = none then some ({ s with int := some t, ths := s.ths.set t (.nSignal all) }, []) else none
    | .nLock _, .fail => goto .idle [.notifyRet t false]
    -- line 81: pthread_cond_signal wakes one sleeper, if there is one
    | .nSignal false, .wakes u =>
      match s.ths[u]? with
      | some (.blocked k) =>
        some ({ s with ths := (s.ths.set u (.wake k .ok)).set t .nUnlock }, [.notified t false [u]])
      | _ => none
    | .nSignal false, .go => if s.ths.any PC.isBlocked then none else goto .nUnlock [.notified t false []]
    -- line 87: pthread_cond_broadcast wakes all
    | .nSignal true, .go =>
      some ({ s with ths := (s.ths.map PC.wakeUp).set t .nUnlock }, [.notified t true (sleepers s.ths)])
    -- lines 82, 88
    | .nUnlock, .go => some ({ s with int := none, ths := s.ths.set t .idle }, [.notifyRet t true])
    | _, _ => none

end Verif.CvAny
