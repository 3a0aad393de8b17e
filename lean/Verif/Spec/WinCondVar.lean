import Verif.Model.WinCondVar

/-!
# What the condition variable should do, in terms of its trace

These definitions only look at the recorded events and at which threads are inside a wait.
-/

namespace Verif.WinCv

def Ev.isDecided : Ev → Bool
  | .decided _ _ _ => true
  | _ => false

def Ev.isIssued (t : Nat) : Ev → Bool
  | .issued u _ => u == t
  | _ => false

/-- The thread consumed a unit of notify call `c`. -/
def Ev.tookFrom (c : Nat) : Ev → Bool
  | .took _ d => d == c
  | _ => false

/-- Number of notify calls that did their bookkeeping. -/
def decisions (tr : List Ev) : Nat := tr.countP Ev.isDecided

/-- (number of notify calls decided so far, that number when `t` last started to wait) -/
def bornStep (t : Nat) (a : Nat × Nat) : Ev → Nat × Nat
  | .decided _ _ _ => (a.1 + 1, a.2)
  | .registered u => if u = t then (a.1, a.1) else a
  | _ => a

/-- How many notify calls had done their bookkeeping when thread `t` last became a waiter. -/
def born (t : Nat) (tr : List Ev) : Nat := (tr.foldl (bornStep t) (0, 0)).2

/-- (number of notify calls decided so far, units granted by call `c`) -/
def grantStep (c : Nat) (a : Nat × Nat) : Ev → Nat × Nat
  | .decided _ _ m => (a.1 + 1, if a.1 + 1 = c then m else a.2)
  | _ => a

/-- The number of units the `c`-th notify call decided to issue. -/
def granted (c : Nat) (tr : List Ev) : Nat := (tr.foldl (grantStep c) (0, 0)).2

/-- The number of units of the `c`-th notify call consumed by waiters. -/
def consumed (c : Nat) (tr : List Ev) : Nat := tr.countP (Ev.tookFrom c)

/-- Units consumed by `t`, and unlocks of the user lock by `t`, since its last call of a wait function. -/
def callStep (t : Nat) (a : Nat × Nat) : Ev → Nat × Nat
  | .called u _ => if u = t then (0, 0) else a
  | .took u _ => if u = t then (a.1 + 1, a.2) else a
  | .unlocked u => if u = t then (a.1, a.2 + 1) else a
  | _ => a

def unitsInCall (t : Nat) (tr : List Ev) : Nat := (tr.foldl (callStep t) (0, 0)).1
def unlocksInCall (t : Nat) (tr : List Ev) : Nat := (tr.foldl (callStep t) (0, 0)).2

/-- Sum of all granted units. -/
def allGranted : List Ev → Nat
  | [] => 0
  | .decided _ _ m :: tr => m + allGranted tr
  | _ :: tr => allGranted tr

/-- Sum of the units that were put into the semaphores. -/
def allIssued : List Ev → Nat
  | [] => 0
  | .issued _ m :: tr => m + allIssued tr
  | _ :: tr => allIssued tr

def Ev.isTook : Ev → Bool
  | .took _ _ => true
  | _ => false

/-- Sum of all consumed units. -/
def allConsumed (tr : List Ev) : Nat := tr.countP Ev.isTook

/-- The thread is between its registration as a waiter and the end of its wait. -/
def PC.waiting : PC → Bool
  | .wExit _ _ | .wUnlock _ _ | .blocked _ _ | .gotTok _ _ | .inTok _ _ | .expired _ | .inExpired _ | .failed _
  | .inFailed _ => true
  | _ => false

/-- Number of threads that wait. -/
def waiting (s : St) : Nat := s.ths.countP PC.waiting

/-- Number of threads that wait and have not been notified: every unit granted and not consumed belongs to one of
them. -/
def unnotified (tr : List Ev) (s : St) : Nat := waiting s - (allGranted tr - allConsumed tr)

end Verif.WinCv
