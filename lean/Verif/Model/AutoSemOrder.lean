import Verif.Base.View
import Verif.Model.AutoEventSem

/-!
# auto_reset_event on top of a semaphore: memory order

Source: include/boost/sync/detail/events/auto_reset_event_semaphore.hpp 39-111.

The steps are those of `Verif.AutoSem`, with what each thread has observed.  All writes to `m_state` are read-modify-write operations, which read its newest value; the
load (line 45) and the load of a compare-exchange that fails (line 50) may read any value of the modification order that is not older than one the thread has observed.

Simplifications.  `m_sem` is one counter; its operations are those of a location changed by release and acquire operations in a single order, as POSIX requires of
`sem_post` and `sem_wait` ("synchronize memory").  Threads also synchronise by other means (action `sync`), which is why what is observed is passed on between threads.
A release fence with no store after it (line 63) does nothing.
-/

namespace Verif.AutoSemOrder

open Verif.Atomic (Op One)
open AutoSem (PC seen)

/-- What has been observed: things done by the users' code, and a place in the modification order of `m_state` (line 111). -/
structure V where
  ids : View
  pos : Nat
  deriving DecidableEq, Repr

/-- Both have been observed (synchronisation, lines 50, 68, 74, 87). -/
def V.join (a b : V) : V := ⟨a.ids ++ b.ids, max a.pos b.pos⟩

/-- The members and threads; the values of `m_state` from the first to the newest (line 111); what is published by the newest one, and by `m_sem` (line 110); what
the threads have observed; `fresh` numbers the things done by the users' code. -/
structure St where
  base : AutoSem.St
  hist : List Int
  msg : V
  semMsg : V
  views : List V
  fresh : Nat
  deriving DecidableEq, Repr

/-- Lines 39-41: the constructor. -/
def init (n : Nat) : St := ⟨AutoSem.init n, [0], ⟨[], 0⟩, ⟨[], 0⟩, List.replicate n ⟨[], 0⟩, 0⟩

/-- What happens next: an action of `Verif.AutoSem`; line 45, or line 50 if it fails, reads the `i`-th value; the users' code does something, or learns
what thread `u` knows. -/
inductive Act
  | op (a : AutoSem.Act)
  | load (i : Nat)
  | work
  | sync (u : Nat)
  deriving DecidableEq, Repr

/-- What is observed: an event of `Verif.AutoSem`; something is done; `m_state` has been changed to `x` by a post (line 50), by a wait (lines 68, 74, 87), by a wait
that fails (lines 80, 93); `m_sem.post()` has been called (line 52); a post has given up (line 63); a wait of `m_sem` has taken a permit (lines 69, 76, 89). -/
inductive Ev
  | ev (e : Atomic.Ev One)
  | work (t id : Nat)
  | signalled (t : Nat) (x : Int)
  | joined (t : Nat) (x : Int)
  | withdrew (t : Nat) (x : Int)
  | posted (t : Nat)
  | dropped (t : Nat)
  | took (t : Nat)
  deriving DecidableEq, Repr

/-- Line 50: `memory_order_release`. -/
def casOrder : Order := .release
/-- Lines 68, 74, 87: `memory_order_acquire`. -/
def addOrder : Order := .acquire
/-- Lines 80, 93: `memory_order_relaxed`. -/
def subOrder : Order := .relaxed
/-- Line 52: `m_sem.post()`. -/
def semPostOrder : Order := .release
/-- Lines 69, 76, 89: the waits of `m_sem`. -/
def semWaitOrder : Order := .acquire

/-- A read-modify-write of `m_state` by thread `t` (lines 50, 68, 74, 80, 87, 93). -/
def rmw (o : Order) (s : St) (t : Nat) (v : V) (new : Int) : St :=
  let v' : V := { (if o.isAcquire then v.join s.msg else v) with pos := s.hist.length }
  { s with hist := s.hist ++ [new], msg := if o.isRelease then s.msg.join v' else s.msg, views := s.views.set t v' }

/-- A change of `m_sem` by thread `t` (lines 52, 69, 76, 89). -/
def semRmw (o : Order) (s : St) (t : Nat) (v : V) : St :=
  let v' := if o.isAcquire then v.join s.semMsg else v
  { s with semMsg := if o.isRelease then s.semMsg.join v' else s.semMsg, views := s.views.set t v' }

/-- What the action of thread `t` at `pc` that leads to `b` does to what has been observed (lines 43-95). -/
def observe (s : St) (t : Nat) (v : V) (pc : PC) (b : AutoSem.St) : St × List Ev :=
  match pc with
  | .pCas _ => (rmw casOrder s t v b.state, [.signalled t b.state])
  | .pSem => (semRmw semPostOrder s t v, [.posted t])
  | .wAdd _ => (rmw addOrder s t v b.state, [.joined t b.state])
  | .wSub _ => (rmw subOrder s t v b.state, [.withdrew t b.state])
  | .wSem _ => if b.sem < s.base.sem then (semRmw semWaitOrder s t v, [.took t]) else (s, [])
  | _ => (s, [])

/-- Line 45, and line 50 if it fails, are the action `load`; all others are those of `Verif.AutoSem` (lines 43-95). -/
def direct (s : St) (pc : PC) (a : AutoSem.Act) : Bool :=
  match pc, a with
  | .pLoad, .go => false
  | .pCas old, .go => s.base.state = old
  | .pCas _, .spurious => false
  | _, _ => true

/-- The thread is about to load the value, or to compare it (lines 45, 50). -/
def reads : PC → Bool
  | .pLoad | .pCas _ => true
  | _ => false

/-- One atomic action of thread `t` (lines 43-95). -/
def step : StepFn St (Nat × Act) Ev := fun s (t, a) =>
  match s.base.ths[t]?, s.views[t]? with
  | some pc, some v =>
    match a with
    | .work =>
      if pc = .idle then some ({ s with views := s.views.set t { v with ids := v.ids ++ [s.fresh] }, fresh := s.fresh + 1 }, [.work t s.fresh]) else none
    | .sync u =>
      match s.base.ths[u]?, s.views[u]? with
      | some .idle, some w => if pc = .idle then some ({ s with views := s.views.set t (v.join w) }, []) else none
      | _, _ => none
    | .load i =>
      match s.hist[i]? with
      | none => none
      | some x =>
        if v.pos ≤ i ∧ reads pc = true then
          some ({ s with base := { s.base with ths := s.base.ths.set t (seen x) }, views := s.views.set t { v with pos := i } }, if x < 0 then [.dropped t] else [])
        else none
    | .op a =>
      if direct s pc a then
        match AutoSem.step s.base (t, a) with
        | none => none
        | some (b, es) =>
          let r := observe s t v pc b
          some ({ r.1 with base := b }, es.map .ev ++ r.2)
      else none
  | _, _ => none

end Verif.AutoSemOrder
