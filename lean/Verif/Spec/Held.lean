import Verif.Spec.Alone
import Verif.Model.Monitor
import Verif.Model.CvAny
import Verif.Model.CondVarPosix
import Verif.Model.WinCondVar

/-!
# How long internal mutexes are held (C112)

Which events are returns of calls, and in which states a thread waits for somebody else.  All choices of the environment are allowed
(`Any`): operations of the system may fail.
-/

namespace Verif.Spec.Alone

/-- No restriction on the environment. -/
def Any {σ α : Type} (_ : σ) (_ : α) : Prop := True

end Verif.Spec.Alone

namespace Verif.Monitor

open Verif.Atomic (Op Ev)

variable {D S : Type}

/-- The call `op` returns or throws. -/
def Ends (t : Nat) (op : Op S) (es : List (Ev S)) : Prop := ∃ e ∈ es, (∃ r, e = .ret t op r) ∨ e = .threw t op

/-- The thread is asleep in the condition variable. -/
def Sleeps (t : Nat) (s : St D S) : Prop := ∃ k, s.ths[t]? = some (.asleep k)

end Verif.Monitor

namespace Verif.CvAny

/-- A wait returns, throws, or ends the process. -/
def WaitEnds (t : Nat) (es : List Ev) : Prop := ∃ e ∈ es, (∃ r, e = .ret t r) ∨ e = .terminated t

/-- A notification returns or throws. -/
def NotifyEnds (t : Nat) (es : List Ev) : Prop := ∃ e ∈ es, ∃ ok, e = .notifyRet t ok

def Sleeps (t : Nat) (s : St) : Prop := ∃ k, s.ths[t]? = some (.blocked k)

/-- The thread is about to lock the user's lock again, which another thread owns. -/
def NeedsUser (t : Nat) (s : St) : Prop := (∃ r, s.ths[t]? = some (.wRelock r)) ∧ s.user ≠ none

end Verif.CvAny

namespace Verif.CondVarPosix

variable {D : Type}

/-- A wait returns or throws. -/
def WaitEnds (t : Nat) (es : List (Ev D)) : Prop := ∃ e ∈ es, (∃ r, e = .ret t r) ∨ e = .threw t

def Sleeps (t : Nat) (s : St D) : Prop := ∃ k p, s.ths[t]? = some (.asleep k p)

end Verif.CondVarPosix

namespace Verif.WinCv

/-- A wait returns or throws. -/
def WaitEnds (t : Nat) (es : List Ev) : Prop := ∃ r, .ret t r ∈ es

def NotifyEnds (t : Nat) (es : List Ev) : Prop := .notified t ∈ es

/-- The thread is in the wait of the system. -/
def Sleeps (t : Nat) (s : St) : Prop := ∃ k q, s.ths[t]? = some (.blocked k q)

/-- The thread is about to lock the user's lock again, which another thread owns. -/
def NeedsUser (t : Nat) (s : St) : Prop := (∃ r, s.ths[t]? = some (.relock r)) ∧ s.user ≠ none

end Verif.WinCv
