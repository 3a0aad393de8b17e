import Verif.Model.TssOnce
import Verif.Spec.Once

/-! What the users of the TSS manager rely on. -/

namespace Verif.TssOnce

/-- The events in terms of the specification of one-time initialisation; after an abort nothing is to be seen. -/
def seen : Ev → Option (Once.Ev Nat)
  | .began t => some (.began t)
  | .done t p => some (.done t p)
  | .aborted _ => none
  | .proceeded t p => some (.proceeded t p)

end Verif.TssOnce
