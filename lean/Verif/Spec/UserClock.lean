import Verif.Model.UserClock

/-! # What is expected of timed operations with a user's clock -/

namespace Verif.UserClock

/-- A time-out is the answer to a reading of the clock at or past the deadline made after everything else. -/
def TimedOut (deadline : Int) (tr : List Ev) : Prop := ∃ pre n, tr = pre ++ [.read n, .ret false] ∧ deadline ≤ n

/-- Success is the answer of the primitive. -/
def Succeeded (tr : List Ev) : Prop :=
  ∃ pre, tr = pre ++ [.tried true, .ret true] ∨ ∃ dur, tr = pre ++ [.waited dur true, .ret true]

/-- Throughout the call the resource could be acquired: no attempt failed. -/
def Available (tr : List Ev) : Prop := Ev.tried false ∉ tr ∧ ∀ dur, Ev.waited dur false ∉ tr

/-- Operations that acquire something (condition variables do not). -/
def Impl.acquires : Impl → Prop
  | .cvPosix | .cvWindows => False
  | _ => True

end Verif.UserClock
