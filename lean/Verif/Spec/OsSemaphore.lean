import Verif.Model.OsSemaphore

/-! Observations on the history of a semaphore: calls, and what they reported. -/

namespace Verif.OsSem

/-- A `post` that returned normally. -/
def Ev.isPosted : Ev → Bool
  | .ret _ .post (.returned true) => true
  | _ => false

/-- A `wait`, `try_wait` or `timed_wait` that reported success. -/
def Ev.isWaited : Ev → Bool
  | .ret _ .post _ => false
  | .ret _ _ (.returned true) => true
  | _ => false

def Ev.isPostCall : Ev → Bool
  | .called _ .post => true
  | _ => false

def posted (tr : List Ev) : Nat := tr.countP Ev.isPosted
def waited (tr : List Ev) : Nat := tr.countP Ev.isWaited
def postCalls (tr : List Ev) : Nat := tr.countP Ev.isPostCall

end Verif.OsSem
