import Verif.Model.ManualEventFutex

/-! Specification vocabulary for the futex `manual_reset_event`. -/

namespace Verif.ManualFutex

/-- The flag according to the `set`/`reset` operations of the trace. -/
def flagUpd (b : Bool) : Ev → Bool
  | .wasSet _ => true
  | .resetDone _ => false
  | _ => b

def flag (tr : List Ev) : Bool := tr.foldl flagUpd false

/-- Was the event set at some instant since the last call made by thread `t`?  (first component: the flag) -/
def duringUpd (t : Nat) (p : Bool × Bool) (e : Ev) : Bool × Bool :=
  match e with
  | .wasSet _ => (true, true)
  | .resetDone _ => (false, p.2)
  | .called t' _ => (p.1, if t' = t then p.1 else p.2)
  | _ => p

def setDuringCall (t : Nat) (tr : List Ev) : Bool := (tr.foldl (duringUpd t) (false, false)).2

/-- The thread that reports a successful wait. -/
def successOf : Ev → Option Nat
  | .waitDone t => some t
  | .tryDone t true => some t
  | .timedDone t true => some t
  | _ => none

def relOf : Ev → Option Nat
  | .wasSet t => some t
  | _ => none

def workOf : Ev → Option (Nat × Nat)
  | .work t id => some (t, id)
  | _ => none

def PC.isAsleep : PC → Bool
  | .asleep _ _ => true
  | _ => false

/-- Registered as a waiter and not yet returned. -/
def PC.blocked : PC → Bool
  | .sleepCall _ _ _ | .asleep _ _ | .reload _ _ | .sub _ | .timedOut => true
  | _ => false

def PC.waking : PC → Bool
  | .setWake => true
  | _ => false

def Th.isAsleep (th : Th) : Bool := th.pc.isAsleep
def Th.blocked (th : Th) : Bool := th.pc.blocked
/-- A thread inside `set()` about to wake everybody. -/
def Th.waking (th : Th) : Bool := th.pc.waking

end Verif.ManualFutex
