import Verif.Spec.Alone
import Verif.Model.SpinMutex
import Verif.Model.SharedSpinMutex
import Verif.Model.WinMutex
import Verif.Model.AutoEventFutex
import Verif.Model.ManualEventFutex
import Verif.Model.AutoEventSem
import Verif.Model.WinEvent

/-!
# The environment of a thread that runs alone (C111)

Loads return the current value (nobody else writes any more), weak compare-exchange operations do not fail spuriously, waits of the system
do not end for no reason.  And which events are returns of calls.
-/

namespace Verif.Spin

/-- The argument of `go` is the value of the relaxed load. -/
def Fair (s : St) : Act → Prop
  | .go b => b = s.word.val
  | _ => True

end Verif.Spin

namespace Verif.SharedSpin

def Fair (s : St) : Act → Prop
  | .load v => v = s.word.val
  | .casFail => False
  | _ => True

end Verif.SharedSpin

namespace Verif.WinMutex

def Fair (s : St) : Act → Prop
  | .load v => v = s.word.val
  | .fail _ => False
  | _ => True

/-- A function by which one acquires the mutex returns or throws. -/
def Ended (t : Nat) (es : List Ev) : Prop := ∃ e ∈ es, (∃ k p, e = .acquired t k p) ∨ (∃ k, e = .failed t k) ∨ ∃ k, e = .threw t k

/-- The thread is in the wait for the event. -/
def Waits (t : Nat) (s : St) : Prop := ∃ th k old, s.ths[t]? = some th ∧ th.pc = .evWait k old

/-- The thread is outside the functions of the mutex, and does not own it. -/
def Outside (t : Nat) (s : St) : Prop := ∃ th, s.ths[t]? = some th ∧ th.pc = .idle

end Verif.WinMutex

namespace Verif.AutoFutex

def Fair (s : St) : Act → Prop
  | .load v => v = s.word.val
  | .casFail _ | .spurious => False
  | _ => True

/-- A function by which one waits returns. -/
def Ended (t : Nat) (es : List Ev) : Prop := ∃ e ∈ es, e = .waitDone t ∨ (∃ b, e = .tryDone t b) ∨ ∃ b, e = .timedDone t b

/-- The thread is asleep in the system. -/
def Sleeps (t : Nat) (s : St) : Prop := ∃ th, s.ths[t]? = some th ∧ th.isAsleep = true

end Verif.AutoFutex

namespace Verif.ManualFutex

def Fair (s : St) : Act → Prop
  | .load v => v = s.word.val
  | .spurious => False
  | _ => True

def Ended (t : Nat) (es : List Ev) : Prop := ∃ e ∈ es, e = .waitDone t ∨ (∃ b, e = .tryDone t b) ∨ ∃ b, e = .timedDone t b

def Sleeps (t : Nat) (s : St) : Prop := ∃ th k b, s.ths[t]? = some th ∧ th.pc = .asleep k b

end Verif.ManualFutex

namespace Verif.AutoSem

def Fair (_ : St) : Act → Prop
  | .spurious => False
  | _ => True

/-- A call returns or throws. -/
def Ended (t : Nat) (es : List (Atomic.Ev Atomic.One)) : Prop := ∃ e ∈ es, (∃ op b, e = .ret t op b) ∨ ∃ op, e = .threw t op

/-- The thread waits for the semaphore, whose count is zero. -/
def Waits (t : Nat) (s : St) : Prop := ∃ k, s.ths[t]? = some (.wSem k) ∧ k ≠ .tryWait ∧ s.sem = 0

end Verif.AutoSem

namespace Verif.WinEvent

def Fair (_ : St) : Act → Prop := fun _ => True

def Ended (t : Nat) (es : List Ev) : Prop := ∃ e ∈ es, ∃ r, e = .ret t r

end Verif.WinEvent
