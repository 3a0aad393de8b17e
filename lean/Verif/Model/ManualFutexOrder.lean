import Verif.Model.ManualEventFutex

/-!
# `manual_reset_event` on Linux futexes: which values are loaded

Source: include/boost/sync/detail/events/manual_reset_event_futex.hpp 56-185.

The steps are those of `Verif.ManualFutex`, but the loads (lines 78, 86, 138, 177) read a value `m_state` has had, and not one older than a value the thread knows of.
All writes to `m_state` are read-modify-write operations, which read its newest value; each of them makes a new value, also if it is equal to the last.
The acquire load of line 86 learns what was published with the value it reads.

Simplifications, besides those of `Verif.ManualFutex`.  The kernel compares the newest value (lines 77, 127, 166); that the thread thereby learns of it is not used.
Threads also synchronise by other means (action `sync`).
-/

namespace Verif.ManualFutexOrder

open ManualFutex (PC Th isSet takeOrder retEv)

/-- The member and threads; the values of `m_state` from the first to the newest (line 206), with what is published with them; which of them each thread has observed. -/
structure St where
  base : ManualFutex.St
  hist : List (Loc UInt32)
  pos : List Nat
  deriving DecidableEq, Repr

/-- Line 52: `m_state(0u)`. -/
def init (n : Nat) : St := ⟨ManualFutex.init n, [⟨0, []⟩], List.replicate n 0⟩

/-- What happens next: an action of `Verif.ManualFutex`; a load (lines 78, 86, 138, 177) reads the `i`-th value; the users' code learns what thread `u` knows. -/
inductive Act
  | op (a : ManualFutex.Act)
  | load (i : Nat)
  | sync (u : Nat)
  deriving DecidableEq, Repr

/-- What is observed: an event of `Verif.ManualFutex`; `w` has been written to `m_state` (lines 58, 65, 74, 81, 114, 120, 133, 141, 152, 158, 172, 182). -/
inductive Ev
  | ev (e : ManualFutex.Ev)
  | changed (t : Nat) (w : UInt32)
  deriving DecidableEq, Repr

/-- Loads (lines 78, 86, 138, 177) are the action `load`; all others are those of `Verif.ManualFutex` (lines 56-185). -/
def direct (pc : PC) (a : ManualFutex.Act) : Bool :=
  match pc, a with
  | .tryLoad _, .go | _, .load _ => false
  | _, _ => true

/-- The read-modify-write operations: lines 58, 65, 74, 81, 114, 120, 133, 141, 152, 158, 172, 182. -/
def writes : PC → Bool
  | .setOr | .resetAnd | .add _ | .sub _ | .timedOut => true
  | _ => false

/-- One atomic action of thread `t` (lines 56-185). -/
def step : StepFn St (Nat × Act) Ev := fun s (t, a) =>
  match s.base.ths[t]?, s.pos[t]? with
  | some th, some p =>
    match a with
    | .op a =>
      if direct th.pc a then
        match ManualFutex.step s.base (t, a) with
        | none => none
        | some (b, es) =>
          if writes th.pc then some (⟨b, s.hist ++ [b.word], s.pos.set t s.hist.length⟩, .changed t b.word.val :: es.map .ev)
          else some ({ s with base := b }, es.map .ev)
      else none
    | .load i =>
      match s.hist[i]? with
      | none => none
      | some m =>
        if p ≤ i then
          let goto (pc : PC) (v : View) (es : List Ev) : Option (St × List Ev) :=
            some ({ s with base := { s.base with ths := s.base.ths.set t ⟨pc, v⟩ }, pos := s.pos.set t i }, es)
          match th.pc with
          -- line 86
          | .tryLoad k =>
            if isSet m.val then goto .idle (m.loadView takeOrder th.view) [.ev (retEv t k true)]
            else if k = .tryOnly then goto .idle (m.loadView takeOrder th.view) [.ev (.tryDone t false)]
            else goto (.add k) (m.loadView takeOrder th.view) []
          -- lines 75-78
          | .reload k b => if isSet m.val then goto (.sub k) th.view [] else goto (.sleepCall k m.val b) th.view []
          | _ => none
        else none
    | .sync u =>
      match s.base.ths[u]?, s.pos[u]? with
      | some th', some q =>
        if th.pc = .idle ∧ th'.pc = .idle then
          some ({ s with base := { s.base with ths := s.base.ths.set t { th with view := th.view ++ th'.view } }, pos := s.pos.set t (max p q) }, [])
        else none
      | _, _ => none
  | _, _ => none

end Verif.ManualFutexOrder
