import Verif.Base.LTS

/-!
# Specification: an atomic object with waiting operations

The data of the object is one value of type `D`.  Every operation takes effect at one instant (`lin`) between its call
and its return:

* a *signal* operation `s` replaces the data `d` by `put s d`;
* a successful *wait* happens at an instant at which the object is `ready` and replaces `d` by `take d`;
* an operation that throws has no effect;
* `wait` never fails; `try` fails only at an instant at which the object is not ready; `timed` fails only at an instant
  at which the object is not ready and at which its timeout has already expired.

Nothing in this file refers to mutexes, condition variables or program counters.
-/

namespace Verif.Atomic

/-- The abstract object. -/
structure Obj (D S : Type) where
  init : D
  ready : D → Bool
  take : D → D
  put : S → D → D

inductive Kind
  | wait | tryWait | timed
  deriving DecidableEq, Repr

inductive Op (S : Type)
  | acq (k : Kind)
  | sig (s : S)
  deriving DecidableEq, Repr

inductive Ev (S : Type)
  | called (t : Nat) (op : Op S)
  /-- the OS reports to the waiting thread `t` that its timeout expired -/
  | timedOut (t : Nat)
  | ret (t : Nat) (op : Op S) (res : Bool)
  /-- the operation is left by an exception -/
  | threw (t : Nat) (op : Op S)
  deriving DecidableEq, Repr

inductive Status (S : Type)
  | idle
  | pending (op : Op S) (expired : Bool)
  | done (op : Op S) (res : Bool)
  deriving DecidableEq, Repr

structure St (D S : Type) where
  d : D
  ths : List (Status S)
  deriving DecidableEq, Repr

inductive Act (S : Type)
  | call (op : Op S)
  | expire
  | lin
  | ret
  | throw
  deriving DecidableEq, Repr

variable {D S : Type}

def init (O : Obj D S) (n : Nat) : St D S := ⟨O.init, List.replicate n .idle⟩

/-- May a wait of this kind fail now (the object not being ready)? -/
def mayFail : Kind → Bool → Bool
  | .wait, _ => false
  | .tryWait, _ => true
  | .timed, expired => expired

def step (O : Obj D S) : StepFn (St D S) (Nat × Act S) (Ev S) := fun s (t, a) =>
  match s.ths[t]? with
  | none => none
  | some st =>
    match st, a with
    | .idle, .call op => some ({ s with ths := s.ths.set t (.pending op false) }, [.called t op])
    | .pending (.acq .timed) _, .expire =>
      some ({ s with ths := s.ths.set t (.pending (.acq .timed) true) }, [.timedOut t])
    | .pending (.sig x) _, .lin => some (⟨O.put x s.d, s.ths.set t (.done (.sig x) true)⟩, [])
    | .pending (.acq k) e, .lin =>
      if O.ready s.d then some (⟨O.take s.d, s.ths.set t (.done (.acq k) true)⟩, [])
      else if mayFail k e then some ({ s with ths := s.ths.set t (.done (.acq k) false) }, [])
      else none
    | .done op res, .ret => some ({ s with ths := s.ths.set t .idle }, [.ret t op res])
    | .pending op _, .throw => some ({ s with ths := s.ths.set t .idle }, [.threw t op])
    | _, _ => none

/-- The history `h` of `n` threads is explained by the atomic object. -/
def Linearizable (O : Obj D S) (n : Nat) (h : List (Ev S)) : Prop := ∃ s, Exec (step O) (init O n) h s

end Verif.Atomic
