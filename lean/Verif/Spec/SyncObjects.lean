import Verif.Spec.AtomicObject

/-!
# The four objects, and what a history tells about a thread

Written from the documentation of the components, without reference to their code.
-/

namespace Verif.Atomic

/-- The only signalling operation: `post` of an event or semaphore, `unlock` of a mutex. -/
inductive One
  | post
  deriving DecidableEq, Repr

inductive SetReset
  | set | reset
  deriving DecidableEq, Repr

/-- An auto-reset event: a flag; `post` sets it, a successful wait clears it. -/
def eventObj : Obj Bool One where
  init := false
  ready := fun set => set
  take := fun _ => false
  put := fun .post _ => true

/-- A manual-reset event: a flag; waits leave it alone. -/
def flagObj : Obj Bool SetReset where
  init := false
  ready := fun set => set
  take := fun set => set
  put := fun x _ => decide (x = .set)

/-- A counting semaphore: a natural number of permits. -/
def counterObj (i : Nat) : Obj Nat One where
  init := i
  ready := fun n => decide (0 < n)
  take := fun n => n - 1
  put := fun .post n => n + 1

/-- A mutex: `true` when owned; the signalling operation is `unlock`. -/
def lockObj : Obj Bool One where
  init := false
  ready := fun owned => !owned
  take := fun _ => true
  put := fun .post _ => false

variable {D S : Type}

/-- The call thread `t` is executing, and whether its timeout was reported since the call. -/
def progUpd (t : Nat) (p : Option (Op S × Bool)) : Ev S → Option (Op S × Bool)
  | .called u op => if u = t then some (op, false) else p
  | .timedOut u => if u = t then p.map (fun x => (x.1, true)) else p
  | .ret u _ _ | .threw u _ => if u = t then none else p

def prog (tr : List (Ev S)) (t : Nat) : Option (Op S × Bool) := tr.foldl (progUpd t) none

def Ev.thread : Ev S → Nat
  | .called t _ | .timedOut t | .ret t _ _ | .threw t _ => t

/-- Neither a call nor a return nor an exception of thread `t`. -/
def Ev.silentFor (t : Nat) : Ev S → Bool
  | .called u _ | .ret u _ _ | .threw u _ => u != t
  | .timedOut _ => true

/-- Owns the mutex according to the calls: from the return of a successful acquisition to the call of `unlock`
(an `unlock` that throws leaves the mutex owned). -/
def holdsUpd (t : Nat) (b : Bool) : Ev One → Bool
  | .ret u (.acq _) true => if u = t then true else b
  | .called u (.sig _) => if u = t then false else b
  | .threw u (.sig _) => if u = t then true else b
  | _ => b

def holds (tr : List (Ev One)) (t : Nat) : Bool := tr.foldl (holdsUpd t) false

/-- The contract of the users of a mutex: `unlock` is called by an owner. -/
def UnlockedByOwner (tr : List (Ev One)) : Prop :=
  ∀ pre t x post, tr = pre ++ .called t (.sig x) :: post → holds pre t = true

/-- The last observation behind the result `b` of a wait of kind `k` of thread `t` that returns after `tr`: at some
instant during the call, in a state `a` that `R` permits, the object was ready iff the result is success; and if it was
not, the kind of the call permits failure then. -/
def Observed (O : Obj D S) (R : List (Ev S) → St D S → Prop) (tr : List (Ev S)) (t : Nat) (k : Kind) (b : Bool) : Prop :=
  ∃ tr₁ tr₂ a e, tr = tr₁ ++ tr₂ ∧ R tr₁ a ∧ O.ready a.d = b ∧ a.ths[t]? = some (.pending (.acq k) e) ∧
    prog tr₁ t = some (.acq k, e) ∧ (b = false → mayFail k e = true) ∧ ∀ ev ∈ tr₂, ev.silentFor t = true

/-- Completed successful waits and begun, completed or failed signals in a history. -/
def successes (tr : List (Ev S)) : Nat := tr.countP (fun e => match e with | .ret _ (.acq _) true => true | _ => false)
def signalsCalled (tr : List (Ev S)) : Nat := tr.countP (fun e => match e with | .called _ (.sig _) => true | _ => false)
def signalsThrown (tr : List (Ev S)) : Nat := tr.countP (fun e => match e with | .threw _ (.sig _) => true | _ => false)
def signalsDone (tr : List (Ev S)) : Nat := tr.countP (fun e => match e with | .ret _ (.sig _) _ => true | _ => false)

end Verif.Atomic
