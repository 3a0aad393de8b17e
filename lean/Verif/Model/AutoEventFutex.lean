import Verif.Base.LTS
import Verif.Base.View

/-!
# `auto_reset_event` on Linux futexes

Models `include/boost/sync/detail/events/auto_reset_event_futex.hpp` lines 37-320 and the futex system call
(`include/boost/sync/detail/futex.hpp` lines 50-117: `futex_wait`, `futex_timedwait`, `futex_signal`).

Simplifications.
* `detail::pause()` and assertions are omitted.
* Time is not represented: at every point where the code compares a clock or passes a timeout to the kernel, the
  scheduler decides whether the timeout has expired (labels `expired`, `timeout`).  Both overloads of
  `priv_timed_wait` (165-218, 220-274) are covered: the duration overload may return false before registering.
  The chrono overload (276-292) is a loop around the duration overload.
* The relaxed loads of lines 60, 116, 133, 203, 259, 296 may return any word, and so may a compare-exchange that fails (stale reads are
  therefore covered; which ones there are is the subject of C90).
* `FUTEX_WAIT` compares and falls asleep atomically; it may also return at once or wake up for no reason (EINTR).
  `FUTEX_WAKE 1` wakes one sleeper if there is one.
-/

namespace Verif.AutoFutex

/-- Lines 47-48: `wait_count_bits = 22`, `post_count_one = 1 << 22`. -/
def postOne : UInt32 := 0x400000
/-- Line 50: `wait_count_mask`. -/
def waitMask : UInt32 := 0x3fffff
/-- `old_state >> wait_count_bits` (lines 65, 94, ...). -/
def posts (w : UInt32) : UInt32 := w >>> 22
/-- `old_state & wait_count_mask` (line 64). -/
def waiters (w : UInt32) : UInt32 := w &&& waitMask

/-- Which member function a waiting thread executes: `wait` 84-129, `priv_timed_wait` 165-274, `try_wait` 131-144. -/
inductive Kind
  | wait      -- wait(), lines 84-129
  | timed     -- priv_timed_wait, lines 165-274
  | tryOnly   -- try_wait(), lines 131-144
  deriving DecidableEq, Repr

/-- Where a thread is: outside (`idle`), in `post` (58-82), `try_wait` (131-144), `wait` (84-129), the two overloads of
`priv_timed_wait` (165-218, 220-274) or `on_wait_timed_out` (294-315). -/
inductive PC
  | idle
  /-- `post`, line 60 -/
  | postLoad
  /-- `post`, lines 62-78 with `old_state` -/
  | postLoop (old : UInt32)
  /-- `post`, line 81: about to call `futex_signal` -/
  | postSignal
  /-- `try_wait`, line 133 (called by itself or as the fast path, lines 87, 168, 223) -/
  | tryLoad (k : Kind)
  /-- `try_wait`, lines 135-141 with `old_state` -/
  | tryLoop (k : Kind) (old : UInt32)
  /-- lines 91, 172, 231: about to add one waiter -/
  | add (k : Kind)
  /-- lines 94-95, 175-176, 234-235: top of the outer loop -/
  | waitTop (k : Kind) (old : UInt32)
  /-- lines 101, 185, 241: about to call futex_wait with the expected value -/
  | sleepCall (k : Kind) (expect : UInt32)
  /-- asleep in the kernel -/
  | asleep (k : Kind)
  /-- lines 116, 203, 259 -/
  | reload (k : Kind)
  /-- lines 124, 211, 267 -/
  | cas (k : Kind) (old : UInt32)
  /-- `on_wait_timed_out`, line 296 -/
  | toLoad
  /-- `on_wait_timed_out`, lines 297-314 -/
  | toLoop (old : UInt32)
  deriving DecidableEq, Repr

/-- A thread: where it is in lines 58-315, and what it has observed (ghost state for C22). -/
structure Th where
  pc : PC
  view : View
  deriving DecidableEq, Repr

/-- `m_state` (line 319) and the threads; `fresh` numbers the work items of the users' code (ghost state for C22). -/
structure St where
  word : Loc UInt32
  ths : List Th
  fresh : Nat
  deriving DecidableEq, Repr

/-- Line 54: `m_state(0)`. -/
def init (n : Nat) : St :=
  { word := ⟨0, []⟩, ths := List.replicate n ⟨.idle, []⟩, fresh := 0 }

/-- The member functions: `post` (58), `wait` (84), `try_wait` (131), `timed_wait`, `wait_for`, `wait_until` (146-162). -/
inductive Op
  | post | wait | tryWait | timedWait
  deriving DecidableEq, Repr

/-- What is observed of the calls of lines 58-162. -/
inductive Ev
  | work (t id : Nat)
  | called (t : Nat) (op : Op)
  /-- `post` made its compare-exchange (line 68) -/
  | posted (t : Nat)
  /-- `post` returned -/
  | postDone (t : Nat)
  | waitDone (t : Nat)
  | tryDone (t : Nat) (ok : Bool)
  | timedDone (t : Nat) (ok : Bool)
  deriving DecidableEq, Repr

/-- What happens next: a call (58-162), the next atomic access of the code, or one of the choices of the environment in lines 60-313. -/
inductive Act
  | call (op : Op)
  | doWork
  | go
  /-- a relaxed load returning the given word -/
  | load (v : UInt32)
  /-- `compare_exchange_weak` fails, spuriously or because the word differs, and loads the given word -/
  | casFail (v : UInt32)
  /-- futex wait returns without having been signalled (EINTR or spurious) -/
  | spurious
  /-- the deadline is found to have passed before sleeping (lines 183, 227) -/
  | expired
  /-- futex wait returns ETIMEDOUT (lines 191, 247) -/
  | timeout
  /-- `futex_signal` wakes sleeper `j` -/
  | wake (j : Nat)
  /-- `futex_signal` finds no sleeper -/
  | wakeNone
  deriving DecidableEq, Repr

/-- Memory order of line 68 (`post`). -/
def postOrder : Order := .release
/-- Memory order of lines 124, 137, 211, 267, 309 (taking a post). -/
def takeOrder : Order := .acquire
/-- Memory order of lines 91, 172, 231, 303 (counting waiters). -/
def countOrder : Order := .relaxed

/-- The event reported when a waiting call of kind `k` returns (lines 88, 125, 138, 143, 169, 217, 224, 273, 304, 310). -/
def retEv (t : Nat) (k : Kind) (ok : Bool) : Ev :=
  match k with
  | .wait => .waitDone t
  | .timed => .timedDone t ok
  | .tryOnly => .tryDone t ok

/-- Asleep in the system call of lines 101, 185, 241 (futex.hpp 56-87). -/
def PC.isAsleep : PC → Bool
  | .asleep _ => true
  | _ => false

/-- Asleep in the system call of lines 101, 185, 241 (futex.hpp 56-87). -/
def Th.isAsleep (th : Th) : Bool := th.pc.isAsleep

/-- One atomic action of thread `t` (lines 58-315). -/
def step : StepFn St (Nat × Act) Ev := fun s (t, a) =>
  match s.ths[t]? with
  | none => none
  | some th =>
    let goto (pc : PC) (es : List Ev) : Option (St × List Ev) :=
      some ({ s with ths := s.ths.set t { th with pc := pc } }, es)
    let rmw (o : Order) (new : UInt32) (pc : PC) (es : List Ev) : Option (St × List Ev) :=
      some ({ s with word := (s.word.rmw o th.view new).1,
                     ths := s.ths.set t ⟨pc, (s.word.rmw o th.view new).2⟩ }, es)
    match th.pc, a with
    | .idle, .call .post => goto .postLoad [.called t .post]
    | .idle, .call .wait => goto (.tryLoad .wait) [.called t .wait]
    | .idle, .call .tryWait => goto (.tryLoad .tryOnly) [.called t .tryWait]
    | .idle, .call .timedWait => goto (.tryLoad .timed) [.called t .timedWait]
    | .idle, .doWork =>
      some ({ s with ths := s.ths.set t { th with view := s.fresh :: th.view }, fresh := s.fresh + 1 },
            [.work t s.fresh])
    -- post: line 60
    | .postLoad, .load v => goto (.postLoop v) []
    -- post: lines 64-78
    | .postLoop old, .go =>
      if waiters old ≥ posts old then
        if s.word.val = old then
          if waiters old > 0 then rmw postOrder (old + postOne) .postSignal [.posted t]
          else rmw postOrder (old + postOne) .idle [.posted t, .postDone t]
        else goto (.postLoop s.word.val) []
      else goto .idle [.postDone t]
    | .postLoop old, .casFail v =>
      if waiters old ≥ posts old then goto (.postLoop v) [] else none
    -- post: lines 80-81
    | .postSignal, .wake j =>
      match s.ths[j]? with
      | some ⟨.asleep k, v⟩ =>
        some ({ s with ths := (s.ths.set t { th with pc := .idle }).set j ⟨.reload k, v⟩ }, [.postDone t])
      | _ => none
    | .postSignal, .wakeNone =>
      if s.ths.all (fun x => !x.isAsleep) then goto .idle [.postDone t] else none
    -- try_wait: line 133
    | .tryLoad k, .load v => goto (.tryLoop k v) []
    -- try_wait: lines 135-143
    | .tryLoop k old, .go =>
      if posts old > 0 then
        if s.word.val = old then rmw takeOrder (old - postOne) .idle [retEv t k true]
        else goto (.tryLoop k s.word.val) []
      else
        if k = .tryOnly then goto .idle [.tryDone t false] else goto (.add k) []
    | .tryLoop k old, .casFail v => if posts old > 0 then goto (.tryLoop k v) [] else none
    -- priv_timed_wait(system_duration): lines 226-228
    | .tryLoop .timed old, .expired => if posts old > 0 then none else goto .idle [.timedDone t false]
    -- lines 91, 172, 231
    | .add k, .go => rmw countOrder (s.word.val + 1) (.waitTop k s.word.val) []
    -- lines 94-97
    | .waitTop k old, .go => if posts old = 0 then goto (.sleepCall k (old + 1)) [] else goto (.cas k old) []
    -- lines 101, 185, 241
    | .sleepCall k expect, .go => if s.word.val = expect then goto (.asleep k) [] else goto (.reload k) []
    | .sleepCall k _, .spurious => goto (.reload k) []
    | .sleepCall .timed _, .expired => goto .toLoad []
    | .asleep k, .spurious => goto (.reload k) []
    | .asleep .timed, .timeout => goto .toLoad []
    -- lines 116-119
    | .reload k, .load v => if posts v > 0 then goto (.cas k v) [] else goto (.sleepCall k v) []
    -- lines 124-127
    | .cas k old, .go =>
      if s.word.val = old then rmw takeOrder (old - (postOne + 1)) .idle [retEv t k true]
      else goto (.waitTop k s.word.val) []
    | .cas k _, .casFail v => goto (.waitTop k v) []
    -- on_wait_timed_out: line 296
    | .toLoad, .load v => goto (.toLoop v) []
    -- lines 299-311
    | .toLoop old, .go =>
      if posts old = 0 then
        if s.word.val = old then rmw countOrder (old - 1) .idle [.timedDone t false]
        else goto (.toLoop s.word.val) []
      else
        if s.word.val = old then rmw takeOrder (old - (postOne + 1)) .idle [.timedDone t true]
        else goto (.toLoop s.word.val) []
    | .toLoop _, .casFail v => goto (.toLoop v) []
    | _, _ => none

end Verif.AutoFutex
