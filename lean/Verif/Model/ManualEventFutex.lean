import Verif.Base.LTS
import Verif.Base.View

/-!
# `manual_reset_event` on Linux futexes

Models `include/boost/sync/detail/events/manual_reset_event_futex.hpp` lines 37-207 and the futex system call
(`include/boost/sync/detail/futex.hpp` lines 50-117: `futex_wait`, `futex_timedwait`, `futex_broadcast`).

Simplifications.
* Time is not represented: wherever the code compares a clock or passes a timeout to the kernel, the scheduler decides
  whether the timeout has expired (`expired`, `timeout`).  The overloads of `priv_timed_wait` for absolute time
  (108-144) and durations (146-185) have the same structure.  The chrono overload (187-203) is a loop around `timed_wait`.
* The acquire load of `try_wait` (line 86) reads the newest value.  The relaxed loads of lines 78, 138, 177 come after
  the thread's own read-modify-write of the word, so by coherence they return a value the word had since then: a value
  with the post bit clear may be arbitrary (it is only compared with the word again by the kernel), one with the post
  bit set is possible only if the bit was set by some `set()` since the thread's `add`.  For this the state counts the
  `set()` calls (`sets`, a ghost) and a waiting thread remembers the count at its `add` (`base`).
* `FUTEX_WAIT` compares and falls asleep atomically; it may also return at once or wake up for no reason (EINTR).
  `FUTEX_WAKE INT_MAX` wakes all sleepers.
* `add`, `opaque_sub`, `opaque_and` are Boost.Atomic operations; `add` returns the new value.
-/

namespace Verif.ManualFutex

/-- Line 46. -/
def postBit : UInt32 := 1
/-- Line 47. -/
def waitOne : UInt32 := 2
/-- Line 48. -/
def waitMask : UInt32 := ~~~ postBit

/-- `(old_state & post_bit) != 0` (lines 59, 75, 86). -/
def isSet (w : UInt32) : Bool := (w &&& postBit) != 0
/-- `(old_state & wait_count_mask) != 0` (line 59). -/
def hasWaiters (w : UInt32) : Bool := (w &&& waitMask) != 0

/-- Which member function a waiting thread executes: `wait` 68-82, `priv_timed_wait` 108-185, `try_wait` 84-87. -/
inductive Kind
  | wait | timed | tryOnly
  deriving DecidableEq, Repr

/-- Where a thread is: outside (`idle`), in `set` (56-61), `reset` (63-66), `try_wait` (84-87), `wait` (68-82) or `priv_timed_wait`
(108-144, 146-185). -/
inductive PC
  | idle
  /-- `set`, line 58 -/
  | setOr
  /-- `set`, line 60: about to call `futex_broadcast` -/
  | setWake
  /-- `reset`, line 65 -/
  | resetAnd
  /-- `try_wait`, line 86 (also the fast path, lines 71, 111, 149) -/
  | tryLoad (k : Kind)
  /-- lines 74, 114, 152 -/
  | add (k : Kind)
  /-- lines 77, 117-127, 155-166 with the expected value -/
  | sleepCall (k : Kind) (expect : UInt32) (base : Nat)
  | asleep (k : Kind) (base : Nat)
  /-- lines 78, 138, 177 -/
  | reload (k : Kind) (base : Nat)
  /-- lines 81, 141, 182 -/
  | sub (k : Kind)
  /-- lines 120, 133, 158, 172 -/
  | timedOut
  deriving DecidableEq, Repr

/-- A thread: where it is in lines 56-185, and what it has observed (ghost state for C31). -/
structure Th where
  pc : PC
  view : View
  deriving DecidableEq, Repr

/-- `m_state` (line 206) and the threads; `fresh` numbers the work items of the users' code (ghost state for C31). -/
structure St where
  word : Loc UInt32
  ths : List Th
  fresh : Nat
  /-- ghost: number of `fetch_or` operations of `set()` so far -/
  sets : Nat
  deriving DecidableEq, Repr

/-- Line 52. -/
def init (n : Nat) : St :=
  { word := ⟨0, []⟩, ths := List.replicate n ⟨.idle, []⟩, fresh := 0, sets := 0 }

/-- The member functions: `set` (56), `reset` (63), `wait` (68), `try_wait` (84), `timed_wait`, `wait_for`, `wait_until` (89-105). -/
inductive Op
  | set | reset | wait | tryWait | timedWait
  deriving DecidableEq, Repr

/-- What is observed of the calls of lines 56-105. -/
inductive Ev
  | work (t id : Nat)
  | called (t : Nat) (op : Op)
  /-- the `fetch_or` of `set()` (line 58) -/
  | wasSet (t : Nat)
  | setDone (t : Nat)
  /-- the `and` of `reset()` (line 65), at which it returns -/
  | resetDone (t : Nat)
  | waitDone (t : Nat)
  | tryDone (t : Nat) (ok : Bool)
  | timedDone (t : Nat) (ok : Bool)
  deriving DecidableEq, Repr

/-- What happens next: a call (56-105), the next atomic access of the code, or one of the choices of the environment in lines 77-178
(value of a relaxed load, spurious return, expiry of a timeout). -/
inductive Act
  | call (op : Op)
  | doWork
  | go
  | load (v : UInt32)
  | spurious
  | expired
  | timeout
  deriving DecidableEq, Repr

/-- Memory order of line 58. -/
def setOrder : Order := .release
/-- Memory order of lines 81, 86, 141, 182. -/
def takeOrder : Order := .acquire
/-- Memory order of lines 65, 74, 114, 120, 133, 152, 158, 172. -/
def countOrder : Order := .relaxed

/-- The event reported when a waiting call of kind `k` returns (lines 72, 82, 86, 112, 121, 134, 143, 150, 159, 173, 184). -/
def retEv (t : Nat) (k : Kind) (ok : Bool) : Ev :=
  match k with
  | .wait => .waitDone t
  | .timed => .timedDone t ok
  | .tryOnly => .tryDone t ok

/-- `FUTEX_WAKE INT_MAX` (line 60, futex.hpp 90-102): every sleeper returns from the system call. -/
def Th.wakeUp (th : Th) : Th :=
  match th.pc with
  | .asleep k b => { th with pc := .reload k b }
  | _ => th

/-- One atomic action of thread `t` (lines 56-185). -/
def step : StepFn St (Nat × Act) Ev := fun s (t, a) =>
  match s.ths[t]? with
  | none => none
  | some th =>
    let goto (pc : PC) (es : List Ev) : Option (St × List Ev) :=
      some ({ s with ths := s.ths.set t { th with pc := pc } }, es)
    let rmw (o : Order) (new : UInt32) (pc : PC) (es : List Ev) : Option (St × List Ev) :=
      some ({ s with word := (s.word.rmw o th.view new).1,
                     ths := s.ths.set t ⟨pc, (s.word.rmw o th.view new).2⟩ }, es)
    match th.pc, a with
    | .idle, .call .set => goto .setOr [.called t .set]
    | .idle, .call .reset => goto .resetAnd [.called t .reset]
    | .idle, .call .wait => goto (.tryLoad .wait) [.called t .wait]
    | .idle, .call .tryWait => goto (.tryLoad .tryOnly) [.called t .tryWait]
    | .idle, .call .timedWait => goto (.tryLoad .timed) [.called t .timedWait]
    | .idle, .doWork =>
      some ({ s with ths := s.ths.set t { th with view := s.fresh :: th.view }, fresh := s.fresh + 1 },
            [.work t s.fresh])
    -- set: lines 58-59
    | .setOr, .go =>
      if !isSet s.word.val && hasWaiters s.word.val then
        some ({ s with word := (s.word.rmw setOrder th.view (s.word.val ||| postBit)).1,
                       ths := s.ths.set t ⟨.setWake, (s.word.rmw setOrder th.view (s.word.val ||| postBit)).2⟩,
                       sets := s.sets + 1 }, [.wasSet t])
      else
        some ({ s with word := (s.word.rmw setOrder th.view (s.word.val ||| postBit)).1,
                       ths := s.ths.set t ⟨.idle, (s.word.rmw setOrder th.view (s.word.val ||| postBit)).2⟩,
                       sets := s.sets + 1 }, [.wasSet t, .setDone t])
    -- set: line 60
    | .setWake, .go => some ({ s with ths := (s.ths.set t { th with pc := .idle }).map Th.wakeUp }, [.setDone t])
    -- reset: line 65
    | .resetAnd, .go => rmw countOrder (s.word.val &&& waitMask) .idle [.resetDone t]
    -- try_wait: line 86
    | .tryLoad k, .go =>
      if isSet s.word.val then
        some ({ s with ths := s.ths.set t ⟨.idle, s.word.loadView takeOrder th.view⟩ }, [retEv t k true])
      else if k = .tryOnly then
        some ({ s with ths := s.ths.set t ⟨.idle, s.word.loadView takeOrder th.view⟩ }, [.tryDone t false])
      else some ({ s with ths := s.ths.set t ⟨.add k, s.word.loadView takeOrder th.view⟩ }, [])
    -- lines 74-75
    | .add k, .go =>
      rmw countOrder (s.word.val + waitOne)
        (if isSet (s.word.val + waitOne) then .sub k else .sleepCall k (s.word.val + waitOne) s.sets) []
    -- lines 77, 127, 166
    | .sleepCall k e b, .go => if s.word.val = e then goto (.asleep k b) [] else goto (.reload k b) []
    | .sleepCall k _ b, .spurious => goto (.reload k b) []
    | .sleepCall .timed _ _, .expired => goto .timedOut []
    | .asleep k b, .spurious => goto (.reload k b) []
    | .asleep .timed _, .timeout => goto .timedOut []
    -- lines 75-78
    | .reload k b, .load v =>
      if isSet v then (if b < s.sets then goto (.sub k) [] else none) else goto (.sleepCall k v b) []
    -- line 81
    | .sub k, .go => rmw takeOrder (s.word.val - waitOne) .idle [retEv t k true]
    -- line 120
    | .timedOut, .go => rmw countOrder (s.word.val - waitOne) .idle [.timedDone t false]
    | _, _ => none

end Verif.ManualFutex
