import Verif.Model.AutoSemOrder

/-! What posts publish, and what has been observed. -/

namespace Verif.AutoSemOrder

/-- What the users' code has done. -/
def workOf : Ev → Option (Nat × Nat)
  | .work t id => some (t, id)
  | _ => none

/-- A call of `post()`. -/
def relCall : Ev → Option Nat
  | .ev (.called t (.sig .post)) => some t
  | _ => none

/-- A post that has made a permit. -/
def relPost : Ev → Option Nat
  | .posted t => some t
  | _ => none

/-- A post that has changed the state. -/
def relSignal : Ev → Option Nat
  | .signalled t _ => some t
  | _ => none

/-- A change of the state: by whom, to what. -/
def change : Ev → Option (Nat × Int)
  | .signalled t x | .joined t x | .withdrew t x => some (t, x)
  | _ => none

/-- The values the state has had. -/
def values (tr : List Ev) : List Int := 0 :: tr.filterMap fun e => (change e).map (·.2)

/-- The events of the members. -/
def plain (tr : List Ev) : List (Atomic.Ev Atomic.One) := tr.filterMap fun | .ev e => some e | _ => none

/-- With `k` observed, so is the event `e` of `tr = a ++ e :: b`, which changes the state: it was made by the thread `t` itself, or by one that has done something
afterwards that is observed. -/
def Knows (t : Nat) (k : View) (e : Ev) (b : List Ev) : Prop :=
  ∃ u x, change e = some (u, x) ∧ (u = t ∨ ∃ id, Ev.work u id ∈ b ∧ id ∈ k)

/-- Thread `t` has not called anything and no call of it has ended. -/
def Silent (t : Nat) (b : List Ev) : Prop := ∀ e ∈ b, ∀ e', e = Ev.ev e' → e'.silentFor t = true

/-- What the end of a call needs: a post has made a permit or given up; a wait that succeeds has taken a permit. -/
def Cause (t : Nat) (op : Atomic.Op Atomic.One) (r : Bool) (e : Ev) : Prop :=
  match op with
  | .sig _ => e = .posted t ∨ e = .dropped t
  | .acq _ => r = true → e = .took t

/-- The last thing to happen in the call of thread `t` that ends after `tr`. -/
def Caused (t : Nat) (op : Atomic.Op Atomic.One) (r : Bool) (tr : List Ev) : Prop := ∃ a e b, tr = a ++ e :: b ∧ Cause t op r e ∧ Silent t b

end Verif.AutoSemOrder
