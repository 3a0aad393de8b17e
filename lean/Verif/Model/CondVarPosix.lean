import Verif.Base.LTS

/-!
# condition_variable for pthreads

Models `include/boost/sync/detail/condition_variables/condition_variable_posix.hpp` (lines 46-245): `notify_one` (89-92),
`notify_all` (94-97), `wait` (99-113), `timed_wait` (115-150), `wait_until` (152-173), `wait_for` (175-195), `priv_wait`
(206-211) and the three `priv_timed_wait` (213-244), together with the mutex of the user's lock and the data it protects,
and the loops of `include/boost/sync/detail/pthread.hpp` (132-152) that repeat an interrupted wait.

A state consists of the owner of the mutex, the data (of any type `D`) and one program counter per thread; a thread sleeps
in `m_cond` iff its program counter is `asleep`.

* The kinds of waits are `plain` (no time limit), `system` (a duration or a system time point: one call of
  `pthread_cond_timedwait` with a fixed time) and `clocked` (a time point of a user's clock: the loop of lines 230-244, whose
  clock readings are arbitrary, hence a free choice of the label).
* The predicate is a function of the data; it may throw.  Each evaluation is one step, made while the mutex is held.
* A wait of the OS that fails does so before it releases the mutex; locking the mutex again after a sleep does not fail.
* Threads call waits only while they hold the mutex (the assertions of lines 102, 109, ...), and all waits use the same mutex.
* Notifications are calls of the OS, one atomic step each; they may be called with or without holding the mutex.
-/

namespace Verif.CondVarPosix

/-- The kinds of waits (lines 99-195). -/
inductive Kind
  /-- `wait` (99-113) -/
  | plain
  /-- timed waits for a duration or a system time point (115-195 with 213-228) -/
  | system
  /-- timed waits for a time point of a user's clock (115-195 with 230-244) -/
  | clocked
  deriving DecidableEq, Repr

/-- Why a sleep ended: notified or spuriously, by a time-out (line 223), or interrupted (pthread.hpp 139, 150). -/
inductive Wake
  | ok
  | timeout
  | interrupted
  deriving DecidableEq, Repr

/-- Where a thread is.  A predicate is given iff an overload with a predicate was called. -/
inductive PC (D : Type)
  | idle
  /-- lines 111, 130, 144, 167, 189: the loop evaluates the predicate, the mutex is held -/
  | test (k : Kind) (p : D → Bool)
  /-- lines 236-237, 241: the clock of the user is read, the mutex is held -/
  | clock (p : Option (D → Bool))
  /-- lines 208, 222: about to call the wait of the OS, the mutex is held -/
  | block (k : Kind) (p : Option (D → Bool))
  /-- asleep in the condition variable -/
  | asleep (k : Kind) (p : Option (D → Bool))
  /-- inside the wait of the OS, awake, locking the mutex again -/
  | wake (k : Kind) (p : Option (D → Bool)) (r : Wake)
  /-- lines 133, 147, 170, 192: after a time-out, the mutex is held -/
  | last (p : D → Bool)

/-- The mutex and the data it protects (the precondition of lines 99-195), and the threads. -/
structure St (D : Type) where
  owner : Option Nat
  data : D
  ths : List (PC D)

/-- What is observed of the calls (lines 89-195), of the mutex and of the data. -/
inductive Ev (D : Type)
  /-- the user locks, unlocks the mutex or changes the data -/
  | locked (t : Nat)
  | unlocked (t : Nat)
  | updated (t : Nat) (d : D)
  /-- a wait is called -/
  | called (t : Nat) (k : Kind) (p : Option (D → Bool))
  /-- the wait releases the mutex and falls asleep -/
  | slept (t : Nat)
  /-- the system ends the sleep without notification -/
  | spurious (t : Nat)
  | interrupted (t : Nat)
  /-- the time limit is reported to be reached -/
  | expired (t : Nat)
  /-- the wait has locked the mutex again -/
  | relocked (t : Nat)
  /-- the wait returns; without a predicate `true` means `no_timeout` -/
  | ret (t : Nat) (res : Bool)
  | threw (t : Nat)
  /-- `notify_one` or `notify_all` has woken the sleepers `ws` -/
  | notified (t : Nat) (all : Bool) (ws : List Nat)

/-- What happens next. -/
inductive Act (D : Type)
  /-- the user's code around the calls of lines 89-195 -/
  | lock
  | unlock
  | update (d : D)
  | wait (k : Kind) (p : Option (D → Bool))
  /-- line 91; `pthread_cond_signal` wakes this thread, or nobody -/
  | notifyOne (u : Option Nat)
  /-- line 96 -/
  | notifyAll
  /-- the next operation of the code; at `clock`: the clock of the user has reached the deadline -/
  | go
  /-- the operation fails: the wait of the OS (lines 209, 225) or the predicate (lines 111, 130, 133, ...) -/
  | fail
  /-- line 237: the clock of the user is before the deadline -/
  | early
  /-- the system ends the sleep (lines 208, 222) -/
  | spurious
  | timeout
  | interrupt

variable {D : Type}

/-- Asleep in line 208 or 222. -/
def PC.isAsleep : PC D → Bool
  | .asleep _ _ => true
  | _ => false

/-- What `pthread_cond_broadcast` (line 96) does to each thread. -/
def PC.wakeUp : PC D → PC D
  | .asleep k p => .wake k p .ok
  | pc => pc

/-- The threads asleep in `m_cond` (line 51). -/
def sleepers (ths : List (PC D)) : List Nat :=
  (List.range ths.length).filter fun i => match ths[i]? with | some p => p.isAsleep | none => false

/-- Lines 213-244: how a wait begins, after the predicate was found false if there is one. -/
def begin (k : Kind) (p : Option (D → Bool)) : PC D := if k = .clocked then .clock p else .block k p

/-- Lines 65-67: the constructor; the mutex is free and holds data `d`. -/
def init (n : Nat) (d : D) : St D := ⟨none, d, List.replicate n .idle⟩

/-- One atomic action of thread `t` (lines 89-244).  `bug` says whether interrupted waits are repeated, that is, whether
`BOOST_SYNC_HAS_PTHREAD_EINTR_BUG` is defined (pthread.hpp 47-154); without it waits are not interrupted. -/
def step (bug : Bool) : StepFn (St D) (Nat × Act D) (Ev D) := fun s (t, a) =>
  match s.ths[t]? with
  | none => none
  | some pc =>
    let goto (pc' : PC D) (es : List (Ev D)) : Option (St D × List (Ev D)) := some ({ s with ths := s.ths.set t pc' }, es)
    match pc, a with
    -- the user's code
    | .idle, .lock => if s.owner = none then some ({ s with owner := some t }, [.locked t]) else none
    | .idle, .unlock => if s.owner = some t then some ({ s with owner := none }, [.unlocked t]) else none
    | .idle, .update d => if s.owner = some t then some ({ s with data := d }, [.updated t d]) else none
    -- lines 102-103, 119-120, 156-157, 179-180 and 109-111, 128-130, 142-144, 165-167, 187-189
    | .idle, .wait k none => if s.owner = some t then goto (begin k none) [.called t k none] else none
    | .idle, .wait k (some p) => if s.owner = some t then goto (.test k p) [.called t k (some p)] else none
    -- line 91
    | .idle, .notifyOne (some u) =>
      match s.ths[u]? with
      | some (.asleep k p) => some ({ s with ths := s.ths.set u (.wake k p .ok) }, [.notified t false [u]])
      | _ => none
    | .idle, .notifyOne none => if s.ths.any PC.isAsleep then none else some (s, [.notified t false []])
    -- line 96
    | .idle, .notifyAll => some ({ s with ths := s.ths.map PC.wakeUp }, [.notified t true (sleepers s.ths)])
    -- lines 111-113, 130-135, 144-149, 167-172, 189-194
    | .test k p, .go => if p s.data then goto .idle [.ret t true] else goto (begin k (some p)) []
    | .test _ _, .fail => goto .idle [.threw t]
    -- lines 236-237, 241
    | .clock p, .early => goto (.block .clocked p) []
    | .clock none, .go => goto .idle [.expired t, .ret t false]
    | .clock (some p), .go => goto (.last p) [.expired t]
    -- lines 208, 222: the mutex is released and the thread put to sleep in one step
    | .block k p, .go => some ({ s with owner := none, ths := s.ths.set t (.asleep k p) }, [.slept t])
    -- lines 209-210, 225-226
    | .block _ _, .fail => goto .idle [.threw t]
    | .asleep k p, .spurious => goto (.wake k p .ok) [.spurious t]
    | .asleep k p, .timeout => if k = .plain then none else goto (.wake k p .timeout) []
    | .asleep k p, .interrupt => if bug then goto (.wake k p .interrupted) [.interrupted t] else none
    | .wake k p r, .go =>
      if s.owner = none then
        let relock (pc' : PC D) (es : List (Ev D)) : Option (St D × List (Ev D)) :=
          some ({ s with owner := some t, ths := s.ths.set t pc' }, .relocked t :: es)
        match r, k, p with
        -- lines 227, 239-240, and back to the loop of the predicate
        | .ok, _, none => relock .idle [.ret t true]
        | .ok, k, some p => relock (.test k p) []
        -- lines 223-224; 239, 241
        | .timeout, .clocked, p => relock (.clock p) []
        | .timeout, _, none => relock .idle [.expired t, .ret t false]
        | .timeout, _, some p => relock (.last p) [.expired t]
        -- pthread.hpp 135-139, 146-150
        | .interrupted, k, p => relock (.block k p) []
      else none
    | .last p, .go => goto .idle [.ret t (p s.data)]
    | .last _, .fail => goto .idle [.threw t]
    | _, _ => none

end Verif.CondVarPosix
