import Verif.Model.AutoEventFutex
import Verif.Spec.BinaryEvent

/-! Specification vocabulary for the futex `auto_reset_event`. -/

namespace Verif.AutoFutex

/-- A wait that reported success. -/
def isSuccess : Ev → Bool
  | .waitDone _ => true
  | .tryDone _ ok => ok
  | .timedDone _ ok => ok
  | _ => false

/-- A call of `post`. -/
def isPostCall : Ev → Bool
  | .called _ .post => true
  | _ => false

/-- A call of a waiting function. -/
def isWaitCall : Ev → Bool
  | .called _ .post => false
  | .called _ _ => true
  | _ => false

/-- A `post` that changed the word. -/
def isPosted : Ev → Bool
  | .posted _ => true
  | _ => false

/-- A `post` that returned. -/
def isPostDone : Ev → Bool
  | .postDone _ => true
  | _ => false

/-- Number of successful waits, post calls, ... recorded in a trace. -/
def successes (tr : List Ev) : Nat := tr.countP isSuccess
def postCalls (tr : List Ev) : Nat := tr.countP isPostCall
def postsMade (tr : List Ev) : Nat := tr.countP isPosted
def postsDone (tr : List Ev) : Nat := tr.countP isPostDone
def waitCalls (tr : List Ev) : Nat := tr.countP isWaitCall

/-- Threads that registered themselves as waiters and did not return yet: the code between lines 91 and 124
(and the corresponding lines of the timed variants). -/
def PC.blocked : PC → Bool
  | .waitTop _ _ | .sleepCall _ _ | .asleep _ | .reload _ | .cas _ _ | .toLoad | .toLoop _ => true
  | _ => false

def Th.blocked (th : Th) : Bool := th.pc.blocked

/-- A thread that is executing `post`. -/
def PC.posting : PC → Bool
  | .postLoad | .postLoop _ | .postSignal => true
  | _ => false

/-- A thread that is outside of all member functions. -/
def Th.idle (th : Th) : Bool := th.pc = .idle

/-- Nobody can move except by a new call, a timeout or a signal: everybody is outside or asleep in the kernel. -/
def Quiescent (s : St) : Prop := ∀ th ∈ s.ths, th.idle = true ∨ th.isAsleep = true

/-- Publication for C22: an effective post is a release operation. -/
def relOf : Ev → Option Nat
  | .posted t => some t
  | _ => none

/-- Publication for C22, as documented: every returned post is a release operation. -/
def relDocOf : Ev → Option Nat
  | .postDone t => some t
  | _ => none

def workOf : Ev → Option (Nat × Nat)
  | .work t id => some (t, id)
  | _ => none

/-- The thread that reports a successful wait. -/
def successOf : Ev → Option Nat
  | .waitDone t => some t
  | .tryDone t true => some t
  | .timedDone t true => some t
  | _ => none

/-- The history of calls and returns of the event. -/
def toHist : Ev → Option BinEvent.Ev
  | .called t .post => some (.called t .post)
  | .called t .wait => some (.called t .wait)
  | .called t .tryWait => some (.called t .tryWait)
  | .called t .timedWait => some (.called t .timedWait)
  | .postDone t => some (.ret t .post true)
  | .waitDone t => some (.ret t .wait true)
  | .tryDone t ok => some (.ret t .tryWait ok)
  | .timedDone t ok => some (.ret t .timedWait ok)
  | .posted _ => none
  | .work _ _ => none

def history (tr : List Ev) : List BinEvent.Ev := tr.filterMap toHist

end Verif.AutoFutex
