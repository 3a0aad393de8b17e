import Verif.Base.LTS
import Verif.Base.View

/-!
# `mutex` and `timed_mutex` on Windows

Models `include/boost/sync/detail/mutexes/basic_mutex_windows.hpp` lines 48-185 and the timed operations of
`include/boost/sync/detail/mutexes/timed_mutex_windows.hpp` lines 65-224 (`mutex_windows.hpp` forwards to `basic_mutex`).

Simplifications.
* Time is not represented: wherever the code compares a clock or the OS decides whether a timeout or a timer expired, the
  scheduler decides (`expired`, `timeout`, `again`).  The three overloads of `priv_timed_lock` (111-161, 163-208, 210-224)
  share the program counters below.
* `get_event()` (100-126) always yields the one event of the mutex or throws (`osFail`); its creation race is modelled in
  `Verif.Model.WinGetEvent`.  The exception thrown by `get_event()` inside the `noexcept` function `unlock()`
  (the process terminates) is not modelled.
* The event is a Boolean; `SetEvent` publishes the view of the caller, a wait that returns because of the event joins it
  (the strongest reading, the Windows documentation promises memory barriers here).
* The acquire load of line 161 (timed_mutex_windows.hpp 113, 165) either reads the newest value and synchronises (`go`), or any other value
  without synchronising (`load v`).
* A failing `compare_exchange_weak` (failing also spuriously) leaves any value whatsoever in `old_count` (`fail v`).
-/

namespace Verif.WinMutex

/-- Line 55. -/
def lockFlag : UInt32 := 0x80000000
/-- Line 56. -/
def eventFlag : UInt32 := 0x40000000

/-- `old_count & lock_flag_value` (lines 132, 149, 164, 177). -/
def isLocked (w : UInt32) : Bool := (w &&& lockFlag) != 0
/-- `old_count & event_set_flag_value` (line 86). -/
def isFlagged (w : UInt32) : Bool := (w &&& eventFlag) != 0

/-- The number of registered waiters: the bits below those of lines 53-54. -/
def countOf (w : UInt32) : Nat := w.toNat % 1073741824

/-- `lock` (76-80), the timed operations (timed_mutex_windows.hpp 80-105), `try_lock` (95-98). -/
inductive Kind
  | lock | timed | tryOnly
  deriving DecidableEq, Repr

/-- How the mutex was acquired: by the `bit_test_and_set` of line 97, by the compare-exchange of line 134, or after
sleeping by the compare-exchange of line 150. -/
inductive Path
  | fast | marked | woken
  deriving DecidableEq, Repr

/-- Where a thread is: outside (`idle`), in one of the functions of lines 76-98, 128-184 and timed_mutex_windows.hpp 111-224, or owning the
mutex. -/
inductive PC
  | idle
  /-- `try_lock`, line 97 (called from 78 and timed_mutex_windows.hpp 83, 92, 101) -/
  | tryBts (k : Kind)
  /-- line 161; timed_mutex_windows.hpp lines 113, 165 -/
  | load (k : Kind)
  /-- the compare-exchange of line 134 -/
  | mark (k : Kind) (old : UInt32)
  /-- lines 166-169; timed_mutex_windows.hpp lines 120-132, 172-178 -/
  | evWait (k : Kind) (old : UInt32)
  /-- the compare-exchange of line 150 -/
  | clr (k : Kind) (old : UInt32)
  /-- line 181; timed_mutex_windows.hpp lines 148, 158, 199, 205; `thr`: an exception is in flight -/
  | sub (k : Kind) (thr : Bool)
  /-- between acquisition and `unlock()` -/
  | owner
  /-- `unlock`, line 85 -/
  | unlAdd
  /-- `unlock`, line 88 -/
  | unlBts
  /-- `unlock`, line 90 -/
  | unlSet
  deriving DecidableEq, Repr

/-- A thread: where it is (lines 76-184), and what it has observed (ghost state for C13). -/
structure Th where
  pc : PC
  view : View
  deriving DecidableEq, Repr

/-- `m_active_count` (line 60), the state of the event `m_event` (line 62), the threads. -/
structure St where
  word : Loc UInt32
  ev : Bool
  evMsg : View
  ths : List Th
  fresh : Nat
  deriving DecidableEq, Repr

/-- Line 65. -/
def init (n : Nat) : St :=
  { word := ⟨0, []⟩, ev := false, evMsg := [], ths := List.replicate n ⟨.idle, []⟩, fresh := 0 }

/-- What is observed of the calls of lines 76-98 and timed_mutex_windows.hpp 65-105. -/
inductive Ev
  | work (t id : Nat)
  | called (t : Nat) (k : Kind)
  /-- `lock()` returned, or `try_lock()`/a timed lock returned true -/
  | acquired (t : Nat) (k : Kind) (p : Path)
  /-- `try_lock()` or a timed lock returned false -/
  | failed (t : Nat) (k : Kind)
  /-- `lock()` or a timed lock threw -/
  | threw (t : Nat) (k : Kind)
  /-- the `fetch_add` of `unlock()` (line 85) -/
  | released (t : Nat)
  /-- `SetEvent` (line 90) -/
  | signalled (t : Nat)
  /-- a wait was satisfied by the event -/
  | consumed (t : Nat)
  deriving DecidableEq, Repr

/-- What happens next: a call (lines 76, 82, 95, timed_mutex_windows.hpp 80-105), the next access of the code, or a choice of the
environment: the value of a load (161) or of a failed compare-exchange (134, 150), a failing system call, a timeout. -/
inductive Act
  | call (k : Kind)
  | callUnlock
  | doWork
  | go
  | load (v : UInt32)
  | fail (v : UInt32)
  | osFail
  | expired
  | timeout
  | again
  deriving DecidableEq, Repr

/-- Memory order of lines 97 and 161 (timed_mutex_windows.hpp 113, 165). -/
def acqOrder : Order := .acquire
/-- Memory order of line 85. -/
def relOrder : Order := .release
/-- Memory order of lines 88, 134, 150, 181 (timed_mutex_windows.hpp 148, 158, 199, 205). -/
def laxOrder : Order := .relaxed

/-- `new_count` of line 133. -/
def markNew (old : UInt32) : UInt32 := if isLocked old then old + 1 else old ||| lockFlag

/-- `old_count` after lines 145-146. -/
def clrStart (old : UInt32) : UInt32 := (old &&& ~~~ lockFlag) ||| eventFlag

/-- `new_count` of line 149. -/
def clrNew (old : UInt32) : UInt32 :=
  (if isLocked old then old else (old - 1) ||| lockFlag) &&& ~~~ eventFlag

/-- One atomic action of thread `t` (lines 76-98, 128-184, timed_mutex_windows.hpp 111-224). -/
def step : StepFn St (Nat × Act) Ev := fun s (t, a) =>
  match s.ths[t]? with
  | none => none
  | some th =>
    let goto (pc : PC) (es : List Ev) : Option (St × List Ev) :=
      some ({ s with ths := s.ths.set t { th with pc := pc } }, es)
    let rmw (o : Order) (new : UInt32) (pc : PC) (es : List Ev) : Option (St × List Ev) :=
      some ({ s with word := (s.word.rmw o th.view new).1,
                     ths := s.ths.set t ⟨pc, (s.word.rmw o th.view new).2⟩ }, es)
    match th.pc, a with
    | .idle, .call k => goto (.tryBts k) [.called t k]
    | .idle, .doWork =>
      some ({ s with ths := s.ths.set t { th with view := s.fresh :: th.view }, fresh := s.fresh + 1 },
            [.work t s.fresh])
    | .owner, .doWork =>
      some ({ s with ths := s.ths.set t { th with view := s.fresh :: th.view }, fresh := s.fresh + 1 },
            [.work t s.fresh])
    | .owner, .callUnlock => goto .unlAdd []
    -- line 97
    | .tryBts k, .go =>
      if isLocked s.word.val then
        rmw acqOrder (s.word.val ||| lockFlag) (if k = .tryOnly then .idle else .load k)
          (if k = .tryOnly then [.failed t k] else [])
      else rmw acqOrder (s.word.val ||| lockFlag) .owner [.acquired t k .fast]
    -- line 161
    | .load k, .go =>
      some ({ s with ths := s.ths.set t ⟨.mark k s.word.val, s.word.loadView acqOrder th.view⟩ }, [])
    | .load k, .load v => goto (.mark k v) []
    -- timed_mutex_windows.hpp line 217, the deadline is over
    | .load .timed, .expired => goto .idle [.failed t .timed]
    -- lines 132-139
    | .mark k old, .go =>
      if s.word.val = old then
        if isLocked old then rmw laxOrder (markNew old) (.evWait k (markNew old)) []
        else rmw laxOrder (markNew old) .owner [.acquired t k .marked]
      else goto (.mark k s.word.val) []
    | .mark k _, .fail v => goto (.mark k v) []
    -- line 169 and lines 145-146
    | .evWait k old, .go =>
      if s.ev then
        some ({ s with ev := false, ths := s.ths.set t ⟨.clr k (clrStart old), th.view ++ s.evMsg⟩ }, [.consumed t])
      else none
    | .evWait .timed _, .timeout => goto (.sub .timed false) []
    | .evWait k _, .osFail => goto (.sub k true) []
    -- lines 149-151 and the tests of lines 177, timed_mutex_windows.hpp 143, 183
    | .clr k old, .go =>
      if s.word.val = old then
        if isLocked old then rmw laxOrder (clrNew old) (.evWait k old) []
        else rmw laxOrder (clrNew old) .owner [.acquired t k .woken]
      else goto (.clr k s.word.val) []
    | .clr k _, .fail v => goto (.clr k v) []
    -- line 181 etc.
    | .sub k thr, .go =>
      rmw laxOrder (s.word.val - 1) .idle [if thr then .threw t k else .failed t k]
    -- timed_mutex_windows.hpp lines 217-222, before the deadline
    | .sub .timed false, .again => rmw laxOrder (s.word.val - 1) (.load .timed) []
    -- lines 85-86
    | .unlAdd, .go =>
      rmw relOrder (s.word.val + lockFlag)
        (if !isFlagged s.word.val && s.word.val > lockFlag then .unlBts else .idle) [.released t]
    -- line 88
    | .unlBts, .go =>
      rmw laxOrder (s.word.val ||| eventFlag) (if isFlagged s.word.val then .idle else .unlSet) []
    -- line 90
    | .unlSet, .go =>
      some ({ s with ev := true, evMsg := s.evMsg ++ th.view, ths := s.ths.set t { th with pc := .idle } },
            [.signalled t])
    | _, _ => none

end Verif.WinMutex
