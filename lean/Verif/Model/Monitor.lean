import Verif.Spec.SyncObjects

/-!
# The emulations built from a mutex and a condition variable

The semaphore, both events and (on POSIX systems without `pthread_mutex_timedlock`) `timed_mutex` are written to one
pattern.  All blocking operations are

    unique_lock lock(m_mutex);
    while (!ready)  { wait on m_cond, for a timed operation: if it timed out { if (!ready) return false; else break; } }
    take;  return true;

`try` operations test `ready` once, signalling operations are

    lock_guard lock(m_mutex);  put;  notify nobody / one / all;

`Monitor` collects the parts in which the components differ, `step` is the common pattern with an explicit internal
mutex (`owner`), one atomic action per access to the data, the mutex or the condition variable.

Sources (all under include/boost/sync/detail): semaphore/semaphore_emulation.hpp 40-105,
events/auto_reset_event_emulation.hpp 40-108, events/manual_reset_event_emulation.hpp 40-108,
mutexes/timed_mutex_posix.hpp 148-172 and 210-244.

Simplifications.
* Time is not represented: the scheduler decides when a timed wait on the condition variable reports a timeout.  A waiter
  that is notified may report a timeout, too (`wake v true`).
* The condition variable: waiting releases the mutex and falls asleep atomically; `notify_one` wakes some sleeper if
  there is one (chosen by the scheduler); any sleeper may wake spuriously; a woken thread has to reacquire the mutex.
* Failures of the mutex and of the condition variable are the action `fail`: the constructor of the lock throws if the mutex
  cannot be locked (`lockThrows`), a wait throws if the OS refuses it (`waitThrows`); a wait fails before it sleeps, and a
  mutex released by a wait can be reacquired.  `timed_mutex` ignores all failures except those of the timed wait (lines 150,
  153, 160, 162, 167, 226: `BOOST_VERIFY`), which are therefore assumed away.
* Clocks other than the system clock.  The timed waits of the events and of the semaphore pass the time point to the wait of
  the condition variable, which loops by itself (condition_variables/condition_variable_posix.hpp 230-244): if the OS wait
  times out before the user's clock has reached the time point, it waits again, holding `m_mutex` in between, without a look
  at the data.  This is the action `early`, possible if `rewaits` says so.  The same happens to every wait if an interrupted
  OS wait is repeated (pthread.hpp 132-152, compiled if `BOOST_SYNC_HAS_PTHREAD_EINTR_BUG` is defined).  The corresponding overload of `timed_mutex`
  (timed_mutex_posix.hpp 246-263) is a loop around the operation modelled here, see `Verif.Model.UserClock`.
-/

namespace Verif.Monitor

open Verif.Atomic (Kind Op Ev Obj One SetReset)

/-- How a signalling operation notifies: auto_reset_event_emulation.hpp 48-51, manual_reset_event_emulation.hpp 48-51 and 55-59,
semaphore_emulation.hpp 48, timed_mutex_posix.hpp 162. -/
inductive Notify
  | nobody | one | all
  deriving DecidableEq, Repr

/-- The parts in which the components differ: initial data, the tests of the `while` loops, the final update, the updates
and the notifications of the signalling operations (as a function of the data before the update); for the lines see the
components at the end of this file (e.g. auto_reset_event_emulation.hpp 44-104). -/
structure Mon (D S : Type) where
  init : D
  ready : D → Bool
  take : D → D
  put : S → D → D
  notify : S → D → Notify
  /-- kinds of waits that may repeat the OS wait without a look at the data -/
  rewaits : Kind → Bool
  /-- the operations throw if the mutex cannot be locked -/
  lockThrows : Bool
  /-- kinds of waits that throw if the OS refuses to wait -/
  waitThrows : Kind → Bool

/-- Where a thread is in an operation of one of the components (semaphore_emulation.hpp 44-87, auto_reset_event_emulation.hpp 44-91,
manual_reset_event_emulation.hpp 44-91, timed_mutex_posix.hpp 148-172 and 224-241). -/
inductive PC (S : Type)
  | idle
  /-- about to lock `m_mutex` at the beginning of an operation -/
  | want (k : Kind)
  | wantSig (x : S)
  /-- owns `m_mutex`, about to test the data -/
  | inside (k : Kind)
  /-- waiting on `m_cond` -/
  | asleep (k : Kind)
  /-- awake, about to reacquire `m_mutex`; `to`: the wait reports a timeout -/
  | woken (k : Kind) (to : Bool)
  /-- owns `m_mutex`, about to test the data after a timeout -/
  | expired
  /-- inside the wait of the condition variable: the OS wait was interrupted, or it timed out and the user's clock has not
  reached the time point; `m_mutex` is owned; about to wait again -/
  | early (k : Kind)
  /-- owns `m_mutex`, about to update the data -/
  | taking (k : Kind) (to : Bool)
  /-- owns `m_mutex`, about to update the data -/
  | sig (x : S)
  /-- owns `m_mutex`, about to notify -/
  | notifying (x : S) (all : Bool)
  /-- owns `m_mutex`, about to release it and return -/
  | leave (op : Op S) (res : Bool)
  deriving DecidableEq, Repr

/-- The members (semaphore_emulation.hpp 102-104, auto_reset_event_emulation.hpp 106-108, manual_reset_event_emulation.hpp 106-108,
timed_mutex_posix.hpp 61-65) and the threads. -/
structure St (D S : Type) where
  d : D
  /-- owner of `m_mutex` -/
  owner : Option Nat
  ths : List (PC S)
  deriving DecidableEq, Repr

/-- What happens next: a call, the next access of the code, or a choice of the condition variable
(condition_variable_posix.hpp 89-104, 206-244). -/
inductive Act (S : Type)
  | call (op : Op S)
  | go
  /-- `notify_one` wakes thread `v`; `to`: its wait reports a timeout nevertheless -/
  | wake (v : Nat) (to : Bool)
  | spurious
  | timeout
  /-- the OS wait from which the thread awoke reports an interruption, or a timeout which by the user's clock is too early -/
  | early
  /-- the OS refuses to lock the mutex or to wait -/
  | fail
  deriving DecidableEq, Repr

variable {D S : Type}

/-- The constructors: semaphore_emulation.hpp 40-42, auto_reset_event_emulation.hpp 40-42, manual_reset_event_emulation.hpp 40-42,
timed_mutex_posix.hpp 61-65. -/
def init (M : Mon D S) (n : Nat) : St D S := ⟨M.init, none, List.replicate n .idle⟩

/-- Asleep in the wait of the condition variable (condition_variable_posix.hpp 206-228). -/
def PC.isAsleep : PC S → Bool
  | .asleep _ => true
  | _ => false

/-- `notify_all` (condition_variable_posix.hpp 94-97): every sleeper wakes. -/
def PC.wakeUp : PC S → PC S
  | .asleep k => .woken k false
  | pc => pc

/-- One atomic action of thread `t`: semaphore_emulation.hpp 44-87, auto_reset_event_emulation.hpp 44-91,
manual_reset_event_emulation.hpp 44-91, timed_mutex_posix.hpp 148-172 and 224-241. -/
def step (M : Mon D S) : StepFn (St D S) (Nat × Act S) (Ev S) := fun s (t, a) =>
  match s.ths[t]? with
  | none => none
  | some pc =>
    let goto (pc' : PC S) (es : List (Ev S)) : Option (St D S × List (Ev S)) :=
      some ({ s with ths := s.ths.set t pc' }, es)
    let enter (pc' : PC S) : Option (St D S × List (Ev S)) :=
      if s.owner = none then some ({ s with owner := some t, ths := s.ths.set t pc' }, []) else none
    let exit (pc' : PC S) (es : List (Ev S)) : Option (St D S × List (Ev S)) :=
      some ({ s with owner := none, ths := s.ths.set t pc' }, es)
    match pc, a with
    | .idle, .call (.acq k) => goto (.want k) [.called t (.acq k)]
    | .idle, .call (.sig x) => goto (.wantSig x) [.called t (.sig x)]
    | .want k, .go => enter (.inside k)
    -- the test of the `while` loop, or of `try`
    | .inside k, .go =>
      if M.ready s.d then goto (.taking k false) []
      else match k with
        | .tryWait => goto (.leave (.acq .tryWait) false) []
        | k => exit (.asleep k) []
    | .asleep k, .spurious => goto (.woken k false) []
    | .asleep .timed, .timeout => goto (.woken .timed true) [.timedOut t]
    | .woken k to, .go => enter (if to then .expired else .inside k)
    | .woken k false, .early => if M.rewaits k then enter (.early k) else none
    | .early k, .go => exit (.asleep k) []
    -- `if (!ready) return false; else break;`
    | .expired, .go =>
      if M.ready s.d then goto (.taking .timed true) [] else goto (.leave (.acq .timed) false) []
    | .taking k _, .go => some ({ s with d := M.take s.d, ths := s.ths.set t (.leave (.acq k) true) }, [])
    | .wantSig x, .go => enter (.sig x)
    | .sig x, .go =>
      match M.notify x s.d with
      | .nobody => some ({ s with d := M.put x s.d, ths := s.ths.set t (.leave (.sig x) true) }, [])
      | .one => some ({ s with d := M.put x s.d, ths := s.ths.set t (.notifying x false) }, [])
      | .all => some ({ s with d := M.put x s.d, ths := s.ths.set t (.notifying x true) }, [])
    -- `notify_one` without sleepers
    | .notifying x false, .go =>
      if s.ths.countP PC.isAsleep = 0 then goto (.leave (.sig x) true) [] else none
    | .notifying x false, .wake v to =>
      match s.ths[v]? with
      | some (.asleep .timed) =>
        some ({ s with ths := (s.ths.set v (.woken .timed to)).set t (.leave (.sig x) true) },
          if to then [.timedOut v] else [])
      | some (.asleep k) =>
        some ({ s with ths := (s.ths.set v (.woken k false)).set t (.leave (.sig x) true) }, [])
      | _ => none
    -- `notify_all`
    | .notifying x true, .go =>
      some ({ s with ths := (s.ths.set t (.leave (.sig x) true)).map PC.wakeUp }, [])
    | .leave op res, .go => exit .idle [.ret t op res]
    -- the lock of the mutex or the wait fails; on the way out the destructor of the lock releases the mutex
    | .want k, .fail => if M.lockThrows then goto .idle [.threw t (.acq k)] else none
    | .wantSig x, .fail => if M.lockThrows then goto .idle [.threw t (.sig x)] else none
    | .inside k, .fail => if M.waitThrows k && !M.ready s.d then exit .idle [.threw t (.acq k)] else none
    | .early k, .fail => if M.waitThrows k then exit .idle [.threw t (.acq k)] else none
    | _, _ => none

/-! ## The components -/

/-- The operations that wait on the condition variable (auto_reset_event_emulation.hpp 60 and 80, manual_reset_event_emulation.hpp
66 and 81, semaphore_emulation.hpp 55 and 76). -/
def blocks (k : Kind) : Bool := k != .tryWait

/-- Every return of the OS wait ends the wait (condition_variable_posix.hpp 206-228 with pthread.hpp 47-58). -/
def noRewait (_ : Kind) : Bool := false

/-- Timed waits with time points of a clock other than the system clock (condition_variable_posix.hpp 230-244) take part. -/
def userClock (k : Kind) : Bool := k == .timed

/-- Interrupted OS waits are repeated (pthread.hpp 132-152). -/
def interrupts (k : Kind) : Bool := blocks k

/-- `auto_reset_event`, auto_reset_event_emulation.hpp: `m_is_set`; constructor 40-42, tests 59, 68, 78, 82, updates 62, 70, 89, `post`
44-53. -/
def autoEvent (rewaits : Kind → Bool) : Mon Bool One where
  init := false
  ready := id
  take := fun _ => false
  put := fun _ _ => true
  notify := fun _ d => if d then .nobody else .one
  rewaits := rewaits
  lockThrows := true
  waitThrows := blocks

/-- `manual_reset_event`, manual_reset_event_emulation.hpp: `m_is_set`; constructor 40-42, tests 65, 72, 79, 83, no update on success,
`set` 44-53, `reset` 55-59. -/
def manualEvent (rewaits : Kind → Bool) : Mon Bool SetReset where
  init := false
  ready := id
  take := id
  put := fun x _ => match x with | .set => true | .reset => false
  notify := fun x d => match x with | .set => if d then .nobody else .all | .reset => .nobody
  rewaits := rewaits
  lockThrows := true
  waitThrows := blocks

/-- `semaphore`, semaphore_emulation.hpp: `m_count` is an `unsigned int` (32 bits); constructor 40-42, tests 54, 63, 74, 78, updates 57, 66,
85, `post` 44-49. -/
def semaphore (rewaits : Kind → Bool) (i : UInt32) : Mon UInt32 One where
  init := i
  ready := fun d => d != 0
  take := fun d => d - 1
  put := fun _ d => d + 1
  notify := fun _ _ => .one
  rewaits := rewaits
  lockThrows := true
  waitThrows := blocks

/-- `timed_mutex` without `pthread_mutex_timedlock`, timed_mutex_posix.hpp: `m_is_locked`; `lock` 148-156, `unlock` 158-163, `try_lock`
165-172, timed lock 224-241. -/
def timedMutex (rewaits : Kind → Bool) : Mon Bool One where
  init := false
  ready := fun d => !d
  take := fun _ => true
  put := fun _ _ => false
  notify := fun _ _ => .one
  rewaits := rewaits
  lockThrows := false
  waitThrows := fun k => k == .timed

/-- The atomic object a component is meant to be (no code: the specification of semaphore_emulation.hpp 40-105 and the others). -/
def Mon.obj (M : Mon D S) : Obj D S := ⟨M.init, M.ready, M.take, M.put⟩

end Verif.Monitor
