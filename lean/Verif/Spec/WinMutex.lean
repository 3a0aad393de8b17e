import Verif.Model.WinMutex

/-! Specification vocabulary for the Windows mutex: functions of the trace of returned calls only. -/

namespace Verif.WinMutex

def relOf : Ev → Option Nat
  | .released t => some t
  | _ => none

def workOf : Ev → Option (Nat × Nat)
  | .work t id => some (t, id)
  | _ => none

/-- Does thread `t` own the mutex according to the calls that returned? -/
def holdsUpd (t : Nat) (b : Bool) : Ev → Bool
  | .acquired t' _ _ => if t' = t then true else b
  | .released t' => if t' = t then false else b
  | _ => b

def holds (tr : List Ev) (t : Nat) : Bool := tr.foldl (holdsUpd t) false

/-- Signals of the event minus waits it satisfied. -/
def pendingUpd (n : Int) : Ev → Int
  | .signalled _ => n + 1
  | .consumed _ => n - 1
  | _ => n

def pending (tr : List Ev) : Int := tr.foldl pendingUpd 0

/-- Registered in the waiter count of the word. -/
def PC.blocked : PC → Bool
  | .evWait _ _ | .clr _ _ | .sub _ _ => true
  | _ => false

/-- Inside the OS wait. -/
def PC.sleeping : PC → Bool
  | .evWait _ _ => true
  | _ => false

/-- Released by the event, has not updated the word yet. -/
def PC.clearing : PC → Bool
  | .clr _ _ => true
  | _ => false

def Th.blocked (th : Th) : Bool := th.pc.blocked
def Th.sleeping (th : Th) : Bool := th.pc.sleeping
def Th.clearing (th : Th) : Bool := th.pc.clearing

end Verif.WinMutex
