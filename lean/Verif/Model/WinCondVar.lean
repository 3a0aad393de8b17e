import Verif.Base.LTS

/-!
# The Windows condition variable

Source: include/boost/sync/detail/condition_variables/basic_condition_variable_windows.hpp 54-470
(`condition_variable_windows.hpp`, `condition_variable_any_windows.hpp` are wrappers around it).

The ring of `waiter_state`s is a list of nodes, pointers are indices; `m_prev` is written but never read by the code and is
left out.  The critical sections of `m_internal_mutex` are explicit (`owner`); one atomic action per iteration of the two
ring loops, per access to `m_total_waiter_count` outside of the mutex, per operation on a semaphore or a lock.  Inside a
critical section all other accesses of one section form one action.

Simplifications.
* The counters `m_waiter_count`, `m_notify_count`, `m_total_waiter_count` and the semaphore counters are natural numbers.
  The test `m_waiter_count < LONG_MAX` is modelled, and so is the limit of the semaphores.
* Time is not represented: the scheduler decides when a timed wait times out.  The loop that splits a long relative timeout
  into chunks (lines 359-398) only repeats the wait and is one state here.  A timed wait may time out even if its semaphore
  is signalled.
* There is one user lock for all threads.  Locking it again never throws.
* `units` of a node are ghost data: the numbers of the notify calls whose notifications are outstanding.
-/

namespace Verif.WinCv

/-- lines 76-104 -/
structure Node where
  /-- `m_waiter_count` -/
  w : Nat
  /-- `m_notify_count` -/
  n : Nat
  /-- the semaphore -/
  tok : Nat
  /-- `m_next` -/
  next : Nat
  /-- ghost -/
  units : List Nat
  deriving DecidableEq, Repr

/-- `wait` (195-205), `timed_wait` with a duration (207-217), `timed_wait` with a time point, i.e. a waitable timer (219-237). -/
inductive Kind
  | wait | rel | abs
  deriving DecidableEq, Repr

/-- Whether the wait has a timeout (lines 207-237). -/
def Kind.timed : Kind → Bool
  | .wait => false
  | _ => true

/-- How a call of wait ends: `cv_status` (lines 352, 375, 406, 409, 445, 458, 461) or an exception (229, 291, 314, 343, 395, 432). -/
inductive Result
  | noTimeout | timeout | threw
  deriving DecidableEq, Repr

/-- `LONG_MAX` (line 302) on Windows, where `long` has 32 bits. -/
def longMax : Nat := 2147483647

/-- `ReleaseSemaphore` (line 273) on a semaphore with the maximum `LONG_MAX` (line 89): when the sum would exceed the
maximum the call fails and changes nothing.  The result is not looked at. -/
def release (tok m : Nat) : Nat := if tok + m ≤ longMax then tok + m else tok

/-- Where a thread is: outside (`idle`), in a wait (lines 195-237, 284-469) or in a notification (170-193, 259-282). -/
inductive PC
  | idle
  /-- 224-230: obtain and set the waitable timer -/
  | wTimer
  /-- 286: lock the internal mutex -/
  | wEnter (k : Kind)
  /-- 288 -/
  | wInit (k : Kind)
  /-- 299-311: the search; `e` is the node where it began -/
  | wLoop (k : Kind) (e : Nat)
  /-- 314 -/
  | wNew (k : Kind) (e : Nat)
  /-- registered in node `q`, about to unlock the internal mutex -/
  | wExit (k : Kind) (q : Nat)
  /-- an exception leaves `initiate_wait`: unlock the internal mutex -/
  | wAbort
  /-- 202, 214, 234: unlock the user lock -/
  | wUnlock (k : Kind) (q : Nat)
  /-- 331, 364, 420: in the OS wait -/
  | blocked (k : Kind) (q : Nat)
  /-- the wait took a unit of the semaphore; about to lock the internal mutex -/
  | gotTok (k : Kind) (q : Nat)
  | inTok (k : Kind) (q : Nat)
  /-- the wait timed out; about to lock the internal mutex -/
  | expired (q : Nat)
  | inExpired (q : Nat)
  /-- the wait failed; about to lock the internal mutex -/
  | failed (q : Nat)
  | inFailed (q : Nat)
  /-- 118-122, `~relocker`: lock the user lock, then return or let the exception out -/
  | relock (r : Result)
  /-- 172, 184 -/
  | nLoad (all : Bool)
  /-- 174, 186: lock the internal mutex -/
  | nEnter (all : Bool)
  /-- 175, 187 and 261: the second test and the subtraction -/
  | nCheck (all : Bool)
  /-- 264-280: the loop; `c` is `count_to_wake` -/
  | waking (c : Nat)
  /-- leave the critical section and the function -/
  | nExit
  deriving DecidableEq, Repr

/-- What is observed of waits (lines 195-237, 284-469) and notifications (170-193, 259-282). -/
inductive Ev
  | called (t : Nat) (k : Kind)
  /-- thread `t` is counted as a waiter -/
  | registered (t : Nat)
  /-- thread `t` unlocks the user lock -/
  | unlocked (t : Nat)
  /-- thread `t` consumes the notification unit issued by the `c`-th notify call -/
  | took (t : Nat) (c : Nat)
  | ret (t : Nat) (r : Result)
  | notify (t : Nat) (all : Bool)
  /-- the bookkeeping of a notify call: it decided to issue `count` units -/
  | decided (t : Nat) (all : Bool) (count : Nat)
  | issued (t : Nat) (m : Nat)
  | notified (t : Nat)
  deriving DecidableEq, Repr

/-- The members (lines 136-142), the user's lock and the threads. -/
structure St where
  nodes : List Node
  /-- `m_notify_state`, meaningful if `nodes` is not empty -/
  notify : Nat
  /-- `m_wait_state`, null iff `nodes` is empty -/
  waitSt : Nat
  /-- `m_total_waiter_count` -/
  total : Nat
  /-- owner of `m_internal_mutex` -/
  owner : Option Nat
  /-- owner of the user lock -/
  user : Option Nat
  /-- ghost: number of notify calls that did their bookkeeping -/
  calls : Nat
  ths : List PC
  deriving DecidableEq, Repr

/-- What happens next: the user's code, the next action of lines 118-469, a timeout or a failure of the OS. -/
inductive Act
  /-- the user's own locking -/
  | userLock
  | userUnlock
  | callWait (k : Kind)
  | callNotify (all : Bool)
  | go
  | timeout
  /-- allocation or semaphore creation fails, setting the timer fails, the OS wait fails -/
  | fail
  deriving DecidableEq, Repr

/-- 145-148 -/
def init (n : Nat) : St := ⟨[], 0, 0, 0, none, none, 0, List.replicate n .idle⟩

/-- 350-351, 401-405 and others: `--m_waiter_count` and, if there is one, take a notification. -/
def Node.leave (x : Node) : Node := { x with w := x.w - 1, n := x.n - 1, units := x.units.tail }

/-- One action of thread `t` (lines 118-128, 170-237, 259-469). -/
def step : StepFn St (Nat × Act) Ev := fun s (t, a) =>
  match s.ths[t]? with
  | none => none
  | some pc =>
    let goto (pc' : PC) (es : List Ev) : Option (St × List Ev) := some ({ s with ths := s.ths.set t pc' }, es)
    let enter (pc' : PC) : Option (St × List Ev) :=
      if s.owner = none then some ({ s with owner := some t, ths := s.ths.set t pc' }, []) else none
    let exit (pc' : PC) (es : List Ev) : Option (St × List Ev) :=
      some ({ s with owner := none, ths := s.ths.set t pc' }, es)
    match pc, a with
    -- the user's lock
    | .idle, .userLock => if s.user = none then some ({ s with user := some t }, []) else none
    | .idle, .userUnlock => if s.user = some t then some ({ s with user := none }, []) else none
    -- waiting: the caller has to own the lock
    | .idle, .callWait k =>
      if s.user = some t then
        goto (match k with | .abs => .wTimer | k => .wEnter k) [.called t k]
      else none
    | .wTimer, .go => goto (.wEnter .abs) []
    | .wTimer, .fail => goto .idle [.ret t .threw]
    | .wEnter k, .go => enter (.wInit k)
    -- 288-295 and 299
    | .wInit k, .go =>
      if s.nodes = [] then
        some ({ s with nodes := [⟨1, 0, 0, 0, []⟩], notify := 0, waitSt := 0, total := 1,
                       ths := s.ths.set t (.wExit k 0) }, [.registered t])
      else goto (.wLoop k s.waitSt) []
    | .wInit _, .fail => if s.nodes = [] then goto .wAbort [] else none
    | .wLoop k e, .go =>
      match s.nodes[s.waitSt]? with
      | none => none
      | some x =>
        if x.n = 0 ∧ x.w < longMax then
          some ({ s with nodes := s.nodes.set s.waitSt { x with w := x.w + 1 }, total := s.total + 1,
                         ths := s.ths.set t (.wExit k s.waitSt) }, [.registered t])
        else if x.next = e then some ({ s with waitSt := x.next, ths := s.ths.set t (.wNew k e) }, [])
        else some ({ s with waitSt := x.next }, [])
    -- 314-324
    | .wNew k e, .go =>
      match s.nodes[e]? with
      | none => none
      | some x =>
        some ({ s with nodes := s.nodes.set e { x with next := s.nodes.length } ++ [⟨1, 0, 0, x.next, []⟩],
                       waitSt := s.nodes.length, total := s.total + 1,
                       ths := s.ths.set t (.wExit k s.nodes.length) }, [.registered t])
    | .wNew _ _, .fail => goto .wAbort []
    | .wAbort, .go => exit .idle [.ret t .threw]
    | .wExit k q, .go => exit (.wUnlock k q) []
    | .wUnlock k q, .go => some ({ s with user := none, ths := s.ths.set t (.blocked k q) }, [.unlocked t])
    -- the OS wait
    | .blocked k q, .go =>
      match s.nodes[q]? with
      | none => none
      | some x =>
        if 0 < x.tok then
          some ({ s with nodes := s.nodes.set q { x with tok := x.tok - 1 }, ths := s.ths.set t (.gotTok k q) }, [])
        else none
    | .blocked k q, .timeout => if k.timed then goto (.expired q) [] else none
    | .blocked _ q, .fail => goto (.failed q) []
    -- 346-353, 369-377, 439-447
    | .gotTok k q, .go => enter (.inTok k q)
    | .inTok k q, .go =>
      match s.nodes[q]? with
      | none => none
      | some x =>
        if 0 < x.n then
          some ({ s with nodes := s.nodes.set q x.leave, owner := none, ths := s.ths.set t (.relock .noTimeout) },
            [.took t (x.units.headD 0)])
        else exit (.blocked k q) []
    -- 400-409, 452-461
    | .expired q, .go => enter (.inExpired q)
    | .inExpired q, .go =>
      match s.nodes[q]? with
      | none => none
      | some x =>
        if 0 < x.n then
          some ({ s with nodes := s.nodes.set q x.leave, owner := none, ths := s.ths.set t (.relock .noTimeout) },
            [.took t (x.units.headD 0)])
        else
          some ({ s with nodes := s.nodes.set q x.leave, total := s.total - 1, owner := none,
                         ths := s.ths.set t (.relock .timeout) }, [])
    -- 336-342, 388-394, 425-431
    | .failed q, .go => enter (.inFailed q)
    | .inFailed q, .go =>
      match s.nodes[q]? with
      | none => none
      | some x =>
        if 0 < x.n then
          some ({ s with nodes := s.nodes.set q x.leave, owner := none, ths := s.ths.set t (.relock .threw) },
            [.took t (x.units.headD 0)])
        else
          some ({ s with nodes := s.nodes.set q x.leave, total := s.total - 1, owner := none,
                         ths := s.ths.set t (.relock .threw) }, [])
    | .relock r, .go =>
      if s.user = none then some ({ s with user := some t, ths := s.ths.set t .idle }, [.ret t r]) else none
    -- notification
    | .idle, .callNotify all => goto (.nLoad all) [.notify t all]
    | .nLoad all, .go => if 0 < s.total then goto (.nEnter all) [] else goto .idle [.notified t]
    | .nEnter all, .go => enter (.nCheck all)
    | .nCheck all, .go =>
      if s.total = 0 then some ({ s with calls := s.calls + 1, ths := s.ths.set t .nExit }, [.decided t all 0])
      else
        let c := if all then s.total else 1
        some ({ s with total := s.total - c, calls := s.calls + 1, ths := s.ths.set t (.waking c) }, [.decided t all c])
    | .waking c, .go =>
      match s.nodes[s.notify]? with
      | none => none
      | some x =>
        let m := min (x.w - x.n) c
        let s' := { s with nodes := s.nodes.set s.notify { x with n := x.n + m, tok := release x.tok m,
                                                                  units := x.units ++ List.replicate m s.calls } }
        if c - m = 0 then some ({ s' with ths := s.ths.set t .nExit }, [.issued t m])
        else some ({ s' with notify := x.next, ths := s.ths.set t (.waking (c - m)) }, [.issued t m])
    | .nExit, .go => exit .idle [.notified t]
    | _, _ => none

end Verif.WinCv
