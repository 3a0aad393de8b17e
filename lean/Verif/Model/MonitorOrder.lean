import Verif.Base.View
import Verif.Model.Monitor

/-!
# The emulations built from a mutex and a condition variable: what threads learn

Source: include/boost/sync/detail/semaphore/semaphore_emulation.hpp 40-105, events/auto_reset_event_emulation.hpp 40-108, events/manual_reset_event_emulation.hpp 40-108,
mutexes/timed_mutex_posix.hpp 148-172 and 210-244.

The steps are those of `Verif.Monitor`.  Whoever locks `m_mutex`, also when a wait on `m_cond` returns, learns what the thread knew that unlocked it last.  Nothing else
synchronises threads, except the users' code (action `sync`).  Work items are done by the users' code, outside of the members.
-/

namespace Verif.MonitorOrder

open Verif.Atomic (Op)
open Verif.Monitor (Mon PC)

variable {D S : Type}

/-- The members and threads (semaphore_emulation.hpp 102-104, auto_reset_event_emulation.hpp 106-108, manual_reset_event_emulation.hpp 106-108, timed_mutex_posix.hpp 61-65);
what the threads know, what was known to the thread that unlocked `m_mutex` last, and the number of work items. -/
structure St (D S : Type) where
  base : Monitor.St D S
  views : List View
  msg : View
  fresh : Nat
  deriving DecidableEq, Repr

/-- The constructors: semaphore_emulation.hpp 40-42, auto_reset_event_emulation.hpp 40-42, manual_reset_event_emulation.hpp 40-42, timed_mutex_posix.hpp 61-65. -/
def init (M : Mon D S) (n : Nat) : St D S := ⟨Monitor.init M n, List.replicate n [], [], 0⟩

/-- What happens next: an action of `Verif.Monitor` (semaphore_emulation.hpp 44-87 and the others); the users' code does something, or learns what thread `u` knows. -/
inductive Act (S : Type)
  | op (a : Monitor.Act S)
  | doWork
  | sync (u : Nat)
  deriving DecidableEq, Repr

/-- What is observed: an event of `Verif.Monitor`; thread `t` has updated the data for the signalling operation `x` (semaphore_emulation.hpp 47,
auto_reset_event_emulation.hpp 47-50, manual_reset_event_emulation.hpp 47-50 and 58, timed_mutex_posix.hpp 161); a work item. -/
inductive Ev (S : Type)
  | ev (e : Atomic.Ev S)
  | put (t : Nat) (x : S)
  | work (t id : Nat)
  deriving DecidableEq, Repr

/-- The update of a signalling operation (semaphore_emulation.hpp 47, auto_reset_event_emulation.hpp 47-50, manual_reset_event_emulation.hpp 47-50 and 58,
timed_mutex_posix.hpp 161). -/
def puts (t : Nat) : PC S → List (Ev S)
  | .sig x => [.put t x]
  | _ => []

/-- One atomic action of thread `t` (semaphore_emulation.hpp 44-87, auto_reset_event_emulation.hpp 44-91, manual_reset_event_emulation.hpp 44-91, timed_mutex_posix.hpp
148-172 and 224-241). -/
def step (M : Mon D S) : StepFn (St D S) (Nat × Act S) (Ev S) := fun s (t, a) =>
  match s.base.ths[t]?, s.views[t]? with
  | some pc, some v =>
    match a with
    | .op a =>
      match Monitor.step M s.base (t, a) with
      | none => none
      | some (b, es) =>
        match s.base.owner, b.owner with
        | none, some _ => some ({ s with base := b, views := s.views.set t (v ++ s.msg) }, puts t pc ++ es.map .ev)
        | some _, none => some ({ s with base := b, msg := v }, puts t pc ++ es.map .ev)
        | _, _ => some ({ s with base := b }, puts t pc ++ es.map .ev)
    | .doWork =>
      match pc with
      | .idle => some ({ s with views := s.views.set t (s.fresh :: v), fresh := s.fresh + 1 }, [.work t s.fresh])
      | _ => none
    | .sync u =>
      match pc, s.base.ths[u]?, s.views[u]? with
      | .idle, some .idle, some w => some ({ s with views := s.views.set t (v ++ w) }, [])
      | _, _, _ => none
  | _, _ => none

end Verif.MonitorOrder
