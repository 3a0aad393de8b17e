import Verif.Model.CvAny

/-! Specification vocabulary for condition_variable_any: functions of the trace of API events. -/

namespace Verif.CvAny

/-- The owner of the user's lock, computed from the trace. -/
def userOwner (tr : List Ev) : Option Nat :=
  tr.foldl (fun o e => match e with
    | .locked t | .relocked t => some t
    | .unlocked _ | .released _ => none
    | _ => o) none

/-- Whether thread `u` is inside a call of wait that has released the user's lock. -/
def hasReleased (u : Nat) (tr : List Ev) : Bool :=
  tr.foldl (fun b e => match e with
    | .released t => if t = u then true else b
    | .relocked t | .ret t _ | .terminated t => if t = u then false else b
    | _ => b) false

/-- Whether thread `u` returned from, or failed in, a wait. -/
def returned (u : Nat) (tr : List Ev) : Bool :=
  tr.any fun e => match e with | .ret t _ | .terminated t => t = u | _ => false

/-- Sleeping in the system. -/
def asleep (s : St) (u : Nat) : Prop := ∃ k, s.ths[u]? = some (.blocked k)

/-- No notification is lost, "wakes that thread or another blocked one": take any notification and any thread that had
released the user's lock before it took effect and whose wait has not ended since.  If the notification was a
notify_all, or found nobody to wake, that thread is not asleep any more. -/
def NoLostNotification (tr : List Ev) (s : St) : Prop :=
  ∀ pre post t all ws u, tr = pre ++ Ev.notified t all ws :: post → hasReleased u pre = true → returned u post = false →
    (all = true ∨ ws = []) → ¬ asleep s u

/-- No wait is made against a clock of the user. -/
def NoUserClock (tr : List Ev) : Prop := ∀ t, Ev.called t .clocked ∉ tr

end Verif.CvAny
