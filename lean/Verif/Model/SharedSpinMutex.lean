import Verif.Base.LTS
import Verif.Base.View

/-!
# `shared_spin_mutex`

Models `include/boost/sync/detail/mutexes/shared_spin_mutex.hpp` lines 36-125.

Simplifications: `detail::pause()` and the assertions (lines 54, 83) are omitted.  All loads (lines 60, 90, 95, 108)
may return an arbitrary word: the safety results therefore also hold for stale reads.  The acquire loads of lines 95 and
108 do not join any view in the model, which only makes the happens-before theorem harder.
-/

namespace Verif.SharedSpin

/-- Line 39. -/
def unlockedState : UInt32 := 0
/-- Line 40. -/
def readerMask : UInt32 := 0x7fffffff
/-- Line 41. -/
def lockedState : UInt32 := 0x80000000

/-- Where a thread is: outside (`idle`), in one of the functions of lines 57-121, or owning the mutex between them. -/
inductive PC
  | idle
  /-- `lock()` line 60: spinning load -/
  | lockSpin
  /-- `lock()` line 64: compare_exchange_weak -/
  | lockCas
  /-- `try_lock()` line 74: compare_exchange_strong -/
  | tryCas
  /-- exclusive owner -/
  | owner
  /-- `unlock()` line 84 -/
  | unlocking
  /-- `lock_shared()` line 90 -/
  | sharedSpin
  /-- `lock_shared()` line 95 -/
  | sharedLoad
  /-- `lock_shared()` line 98 with `current_state` -/
  | sharedCas (cur : UInt32)
  /-- `try_lock_shared()` line 108 -/
  | trySharedLoad
  /-- `try_lock_shared()` line 111 with `current_state` -/
  | trySharedCas (cur : UInt32)
  /-- shared owner -/
  | sharer
  /-- `unlock_shared()` line 120 -/
  | sharedUnlocking
  deriving DecidableEq, Repr

/-- A thread: where it is in lines 57-121, and what it has observed (ghost state for C07). -/
structure Th where
  pc : PC
  view : View
  deriving DecidableEq, Repr

/-- The word (line 124) and the threads; `fresh` numbers the work items of the users' code (ghost state for C07). -/
structure St where
  word : Loc UInt32
  ths : List Th
  fresh : Nat
  deriving DecidableEq, Repr

/-- Line 49: the state starts as `unlocked_state`. -/
def init (n : Nat) : St :=
  { word := ⟨unlockedState, []⟩, ths := List.replicate n ⟨.idle, []⟩, fresh := 0 }

/-- What is observed of the calls of lines 57-121. -/
inductive Ev
  | work (t id : Nat)
  | locked (t : Nat)
  | tried (t : Nat) (ok : Bool)
  | unlocked (t : Nat)
  | lockedShared (t : Nat)
  | triedShared (t : Nat) (ok : Bool)
  | unlockedShared (t : Nat)
  deriving DecidableEq, Repr

/-- What happens next: a call (lines 57, 71, 81, 87, 105, 118), the next atomic access of the code, the value of a load (60, 90, 95, 108),
a spurious failure (64, 98). -/
inductive Act
  | callLock | callTry | callUnlock | callLockShared | callTryShared | callUnlockShared
  | doWork
  /-- continue with a step that is not a load -/
  | go
  /-- a load returning the given word -/
  | load (v : UInt32)
  /-- spurious failure of `compare_exchange_weak` -/
  | casFail
  deriving DecidableEq, Repr

/-- Memory order of lines 65 and 74 (exclusive compare-exchange). -/
def lockOrder : Order := .acquire
/-- Memory order of line 84 (`unlock`). -/
def unlockOrder : Order := .release
/-- Memory order of lines 98 and 111 (shared compare-exchange). -/
def sharedOrder : Order := .acquire
/-- Memory order of line 120 (`unlock_shared`). -/
def sharedUnlockOrder : Order := .release

/-- `current_state` computed in lines 95 and 108. -/
def masked (v : UInt32) : UInt32 := v &&& readerMask

/-- One atomic action of thread `t` (shared_spin_mutex.hpp 57-121). -/
def step : StepFn St (Nat × Act) Ev := fun s (t, a) =>
  match s.ths[t]? with
  | none => none
  | some th =>
    let goto (pc : PC) : Option (St × List Ev) := some ({ s with ths := s.ths.set t { th with pc := pc } }, [])
    match th.pc, a with
    | .idle, .callLock => goto .lockSpin
    | .idle, .callTry => goto .tryCas
    | .idle, .callLockShared => goto .sharedSpin
    | .idle, .callTryShared => goto .trySharedLoad
    | .owner, .callUnlock => goto .unlocking
    | .sharer, .callUnlockShared => goto .sharedUnlocking
    | .idle, .doWork | .owner, .doWork | .sharer, .doWork =>
      some ({ s with ths := s.ths.set t { th with view := s.fresh :: th.view }, fresh := s.fresh + 1 },
            [.work t s.fresh])
    -- line 60
    | .lockSpin, .load v => goto (if v = unlockedState then .lockCas else .lockSpin)
    -- lines 63-67
    | .lockCas, .go =>
      if s.word.val = unlockedState then
        let r := s.word.rmw lockOrder th.view lockedState
        some ({ s with word := r.1, ths := s.ths.set t ⟨.owner, r.2⟩ }, [.locked t])
      else goto .lockSpin
    | .lockCas, .casFail => goto .lockSpin
    -- lines 73-78
    | .tryCas, .go =>
      if s.word.val = unlockedState then
        let r := s.word.rmw lockOrder th.view lockedState
        some ({ s with word := r.1, ths := s.ths.set t ⟨.owner, r.2⟩ }, [.tried t true])
      else
        some ({ s with ths := s.ths.set t { th with pc := .idle } }, [.tried t false])
    -- line 84
    | .unlocking, .go =>
      some ({ s with word := s.word.store unlockOrder th.view unlockedState,
                     ths := s.ths.set t { th with pc := .idle } }, [.unlocked t])
    -- line 90
    | .sharedSpin, .load v => goto (if v = lockedState then .sharedSpin else .sharedLoad)
    -- line 95
    | .sharedLoad, .load v => goto (.sharedCas (masked v))
    -- lines 96-101
    | .sharedCas cur, .go =>
      if s.word.val = cur then
        let r := s.word.rmw sharedOrder th.view (cur + 1)
        some ({ s with word := r.1, ths := s.ths.set t ⟨.sharer, r.2⟩ }, [.lockedShared t])
      else goto .sharedSpin
    | .sharedCas _, .casFail => goto .sharedSpin
    -- line 108
    | .trySharedLoad, .load v => goto (.trySharedCas (masked v))
    -- lines 109-115
    | .trySharedCas cur, .go =>
      if s.word.val = cur then
        let r := s.word.rmw sharedOrder th.view (cur + 1)
        some ({ s with word := r.1, ths := s.ths.set t ⟨.sharer, r.2⟩ }, [.triedShared t true])
      else
        some ({ s with ths := s.ths.set t { th with pc := .idle } }, [.triedShared t false])
    -- line 120
    | .sharedUnlocking, .go =>
      let r := s.word.rmw sharedUnlockOrder th.view (s.word.val - 1)
      some ({ s with word := r.1, ths := s.ths.set t ⟨.idle, r.2⟩ }, [.unlockedShared t])
    | _, _ => none

end Verif.SharedSpin
