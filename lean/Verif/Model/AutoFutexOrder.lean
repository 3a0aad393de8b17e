import Verif.Model.AutoEventFutex

/-!
# `auto_reset_event` on Linux futexes: which values are loaded

Source: include/boost/sync/detail/events/auto_reset_event_futex.hpp 58-315.

The steps are those of `Verif.AutoFutex`, but the loads (lines 60, 116, 133, 203, 259, 296) and the compare-exchanges that fail (lines 68, 124, 137, 211, 267, 303, 309)
read a value `m_state` has had, and not one older than a value the thread knows of.  All writes to `m_state` are read-modify-write operations, which read its newest value.

Simplifications, besides those of `Verif.AutoFutex`.  The kernel compares the newest value (lines 101, 185, 241); that the thread thereby learns of it is not used.
Threads also synchronise by other means (action `sync`).
-/

namespace Verif.AutoFutexOrder

open AutoFutex (PC Th posts waiters)

/-- The member and threads; the values of `m_state` from the first to the newest (line 319); which of them each thread has observed. -/
structure St where
  base : AutoFutex.St
  hist : List UInt32
  pos : List Nat
  deriving DecidableEq, Repr

/-- Line 54: `m_state(0)`. -/
def init (n : Nat) : St := ⟨AutoFutex.init n, [0], List.replicate n 0⟩

/-- What happens next: an action of `Verif.AutoFutex`; a load (lines 60, 116, 133, 203, 259, 296), or a compare-exchange that fails (lines 68, 124, 137, 211, 267, 303,
309), reads the `i`-th value; the users' code learns what thread `u` knows. -/
inductive Act
  | op (a : AutoFutex.Act)
  | load (i : Nat)
  | casFail (i : Nat)
  | sync (u : Nat)
  deriving DecidableEq, Repr

/-- What is observed: an event of `Verif.AutoFutex`; `m_state` has been changed to `w` (lines 68, 91, 124, 137, 172, 211, 231, 267, 303, 309). -/
inductive Ev
  | ev (e : AutoFutex.Ev)
  | changed (t : Nat) (w : UInt32)
  deriving DecidableEq, Repr

/-- Loads are the action `load`, and compare-exchanges that fail (lines 68, 124, 137, 211, 267, 303, 309) are `casFail`; all others are those of `Verif.AutoFutex` (lines
58-315). -/
def direct (w : UInt32) (pc : PC) (a : AutoFutex.Act) : Bool :=
  match pc, a with
  | _, .load _ | _, .casFail _ => false
  | .postLoop old, .go => !(waiters old ≥ posts old) || w == old
  | .tryLoop _ old, .go => !(posts old > 0) || w == old
  | .cas _ old, .go | .toLoop old, .go => w == old
  | _, _ => true

/-- One atomic action of thread `t` (lines 58-315). -/
def step : StepFn St (Nat × Act) Ev := fun s (t, a) =>
  match s.base.ths[t]?, s.pos[t]? with
  | some th, some p =>
    match a with
    | .op a =>
      if direct s.base.word.val th.pc a then
        match AutoFutex.step s.base (t, a) with
        | none => none
        | some (b, es) =>
          if b.word.val = s.base.word.val then some ({ s with base := b }, es.map .ev)
          else some (⟨b, s.hist ++ [b.word.val], s.pos.set t s.hist.length⟩, .changed t b.word.val :: es.map .ev)
      else none
    | .load i =>
      match s.hist[i]? with
      | none => none
      | some v =>
        if p ≤ i then
          match AutoFutex.step s.base (t, .load v) with
          | none => none
          | some (b, es) => some ({ s with base := b, pos := s.pos.set t i }, es.map .ev)
        else none
    | .casFail i =>
      match s.hist[i]? with
      | none => none
      | some v =>
        if p ≤ i then
          match AutoFutex.step s.base (t, .casFail v) with
          | none => none
          | some (b, es) => some ({ s with base := b, pos := s.pos.set t i }, es.map .ev)
        else none
    | .sync u =>
      match s.base.ths[u]?, s.pos[u]? with
      | some th', some q =>
        if th.pc = .idle ∧ th'.pc = .idle then
          some ({ s with base := { s.base with ths := s.base.ths.set t { th with view := th.view ++ th'.view } }, pos := s.pos.set t (max p q) }, [])
        else none
      | _, _ => none
  | _, _ => none

end Verif.AutoFutexOrder
