import Verif.Model.TimerInit
import Verif.Spec.Once

/-! What the users of the waitable timer rely on. -/

namespace Verif.TimerInit

/-- The events of module `m` in terms of the specification of one-time initialisation. -/
def seen (m : Nat) : Ev → Option (Once.Ev Nat)
  | .began t m' => if m' = m then some (.began t) else none
  | .done t m' k => if m' = m then some (.done t k) else none
  | .threw t m' => if m' = m then some (.failed t) else none
  | .proceeded t m' k => if m' = m then some (.proceeded t k) else none

/-- The system in which no OS call fails. -/
def stepOk : StepFn St (Nat × Act) Ev := fun s l => if l.2 = .fault then none else step s l

/-- The exceptions thrown to callers of module `m`. -/
def throws (m : Nat) (tr : List Ev) : Nat :=
  tr.countP fun | .threw _ m' => m' == m | _ => false

end Verif.TimerInit
