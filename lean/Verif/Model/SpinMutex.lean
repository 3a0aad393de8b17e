import Verif.Base.LTS
import Verif.Base.View

/-!
# `spin_mutex`

Models `include/boost/sync/detail/mutexes/spin_mutex.hpp` lines 41-82 (test-and-test-and-set on `atomic<bool>`) and
lines 87-122 (test-and-set on `atomic_flag`).  The Boolean `free` stands for `state == unlocked_state` (line 43-44)
respectively a cleared flag (line 94).

Simplifications: `detail::pause()` and the assertions (lines 54, 76) are omitted; the relaxed load of line 61 may
return any Boolean (so the results hold for arbitrarily stale reads).
-/

namespace Verif.Spin

/-- Which of the two implementations is compiled (spin_mutex.hpp 31-33, 38, 84). -/
inductive Variant
  | boolTTS   -- lines 41-82
  | flagTAS   -- lines 87-122
  deriving DecidableEq, Repr

/-- Program counter of a thread with respect to one mutex (lines 57-78, 100-118). -/
inductive PC
  /-- not inside any member function and not owning the mutex -/
  | idle
  /-- `lock()`, line 61: about to load -/
  | lockSpin
  /-- `lock()`, line 64 (104): about to execute the exchange of `try_lock()` -/
  | lockXchg
  /-- `try_lock()`, line 71 (112): about to execute the exchange -/
  | tryXchg
  /-- owns the mutex, between `lock`/`try_lock` and `unlock` -/
  | owner
  /-- `unlock()`, line 77 (117): about to execute the store -/
  | unlocking
  deriving DecidableEq, Repr

/-- A thread: program counter (lines 57-78, 100-118) and its happens-before view (ghost state for C02). -/
structure Th where
  pc : PC
  view : View
  deriving DecidableEq, Repr

/-- The mutex word (lines 45, 89) and the threads.  `fresh` numbers the work items of user code (ghost state for C02). -/
structure St where
  word : Loc Bool
  ths : List Th
  fresh : Nat
  deriving DecidableEq, Repr

/-- Initially the mutex is unlocked (line 49 / 94) and `n` threads are idle. -/
def init (n : Nat) : St :=
  { word := ⟨true, []⟩, ths := List.replicate n ⟨.idle, []⟩, fresh := 0 }

/-- Observable events of the calls of lines 57-78, 100-118. -/
inductive Ev
  /-- user code of a thread does something (a write) -/
  | work (t id : Nat)
  /-- `lock()` returned -/
  | locked (t : Nat)
  /-- `try_lock()` returned -/
  | tried (t : Nat) (ok : Bool)
  /-- `unlock()` executed its store -/
  | unlocked (t : Nat)
  deriving DecidableEq, Repr

/-- What the scheduler lets the thread do: a call (lines 57, 69, 74; 100, 110, 115) or the next access. -/
inductive Act
  | callLock | callTry | callUnlock
  /-- user code between calls -/
  | doWork
  /-- continue the call; the Boolean is the value returned by the relaxed load of line 61 when there is one -/
  | go (loaded : Bool)
  deriving DecidableEq, Repr

/-- `state.exchange(locked_state, memory_order_acquire)` (line 71) / `test_and_set(acquire)` (line 112). -/
def xchgOrder : Order := .acquire

/-- `state.store(unlocked_state, memory_order_release)` (line 77) / `clear(release)` (line 117). -/
def unlockOrder : Order := .release

/-- One atomic action of thread `t` (spin_mutex.hpp 57-78, 100-118). -/
def step (v : Variant) : StepFn St (Nat × Act) Ev := fun s (t, a) =>
  match s.ths[t]? with
  | none => none
  | some th =>
    match th.pc, a with
    | .idle, .callLock =>
      some ({ s with ths := s.ths.set t { th with pc := if v = .boolTTS then .lockSpin else .lockXchg } }, [])
    | .idle, .callTry => some ({ s with ths := s.ths.set t { th with pc := .tryXchg } }, [])
    | .idle, .doWork =>
      some ({ s with ths := s.ths.set t { th with view := s.fresh :: th.view }, fresh := s.fresh + 1 },
            [.work t s.fresh])
    | .owner, .doWork =>
      some ({ s with ths := s.ths.set t { th with view := s.fresh :: th.view }, fresh := s.fresh + 1 },
            [.work t s.fresh])
    -- line 61
    | .lockSpin, .go loaded =>
      some ({ s with ths := s.ths.set t { th with pc := if loaded then .lockXchg else .lockSpin } }, [])
    -- lines 64, 71 / 104, 112
    | .lockXchg, .go _ =>
      let r := s.word.rmw xchgOrder th.view false
      if s.word.val then
        some ({ s with word := r.1, ths := s.ths.set t ⟨.owner, r.2⟩ }, [.locked t])
      else
        some ({ s with word := r.1, ths := s.ths.set t ⟨if v = .boolTTS then .lockSpin else .lockXchg, r.2⟩ }, [])
    -- lines 71 / 112
    | .tryXchg, .go _ =>
      let r := s.word.rmw xchgOrder th.view false
      if s.word.val then
        some ({ s with word := r.1, ths := s.ths.set t ⟨.owner, r.2⟩ }, [.tried t true])
      else
        some ({ s with word := r.1, ths := s.ths.set t ⟨.idle, r.2⟩ }, [.tried t false])
    | .owner, .callUnlock => some ({ s with ths := s.ths.set t { th with pc := .unlocking } }, [])
    -- lines 77 / 117
    | .unlocking, .go _ =>
      some ({ s with word := s.word.store unlockOrder th.view true, ths := s.ths.set t { th with pc := .idle } },
            [.unlocked t])
    | _, _ => none

/-- Between the return of `lock`/`try_lock` and the end of `unlock` (lines 57-78, 100-118). -/
def Th.owns (th : Th) : Bool := th.pc = .owner || th.pc = .unlocking

end Verif.Spin
