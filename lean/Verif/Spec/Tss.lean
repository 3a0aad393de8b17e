import Verif.Model.Tss

/-! # Specification of thread-specific storage and of thread exit, in terms of traces -/

namespace Verif.Tss

/-! ## values -/

/-- The value thread `t` has given to object `o`: how one event changes it. -/
def given (t o : Nat) (cur : Option Nat) : Ev → Option Nat
  | .stored t' p => if t' = t ∧ p.obj = o then some p.v else cur
  | .cleared t' o' => if t' = t ∧ o' = o then none else cur
  | _ => cur

/-- The value most recently given to object `o` by thread `t`. -/
def lastValue (t o : Nat) (tr : List Ev) : Option Nat := tr.foldl (given t o) none

def isStored (p : Ptr) : Ev → Bool
  | .stored _ q => decide (q = p)
  | _ => false

/-- The value is cleaned up, forgotten, or handed out by `release()`. -/
def isDisposed (p : Ptr) : Ev → Bool
  | .cleaned _ _ _ q => decide (q = p)
  | .dropped _ q => decide (q = p)
  | .released _ q => decide (q = p)
  | _ => false

/-- How often the value was stored, and how often disposed of. -/
def stored (p : Ptr) (tr : List Ev) : Nat := tr.countP (isStored p)
def disposed (p : Ptr) (tr : List Ev) : Nat := tr.countP (isDisposed p)

def inStorage (p : Ptr) (l : List (Option Ptr)) : Nat := l.countP fun x => decide (x = some p)

def inCtx (p : Ptr) : Option Ctx → Nat
  | some c => inStorage p c.storage
  | none => 0

def inPhase (p : Ptr) : Phase → Nat
  | .tls _ pend _ => inStorage p pend
  | _ => 0

/-- Number of places where a thread holds the pointer: storage, and cleanups under way. -/
def heldBy (p : Ptr) (th : Thread) : Nat :=
  inCtx p th.slot + inCtx p th.dying + inPhase p th.ph + th.todo.countP fun x => decide (x.2 = p)

def held (p : Ptr) (s : St) : Nat := (s.threads.map (heldBy p)).sum

/-- No value of the object is waiting to be cleaned up by an exiting thread. -/
def notAwaited (o : Nat) (th : Thread) : Bool :=
  match th.ph with
  | .tls _ pend _ => pend.all fun x => match x with
    | some q => q.obj != o
    | none => true
  | _ => true

/-- Objects are destroyed only when no value of them is waiting to be cleaned up by an exiting thread. -/
def considerate (s : St) : Nat × Op → Bool
  | (_, .destroy o) => s.threads.all (notAwaited o)
  | _ => true

/-- Executions in which objects are destroyed only then. -/
def stepC (cfg : Cfg) : StepFn St (Nat × Op) Ev := fun s l => if considerate s l then step cfg s l else none

/-- A value is cleaned up by the cleanup function of the object it was stored in, and forgotten only if the object has none. -/
def rightly (objs : List Obj) : Ev → Prop
  | .cleaned _ _ c p => c = p.obj
  | .dropped _ p => ∃ ob, objs[p.obj]? = some ob ∧ ob.cleanup = false
  | _ => True

end Verif.Tss
