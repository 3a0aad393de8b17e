import Verif.Model.MonitorOrder

/-! What has been observed in the emulations. -/

namespace Verif.MonitorOrder

variable {S : Type}

/-- A signalling operation updates the data. -/
def relOf : Ev S → Option Nat
  | .put t _ => some t
  | _ => none

/-- The users' code does something. -/
def workOf : Ev S → Option (Nat × Nat)
  | .work t id => some (t, id)
  | _ => none

end Verif.MonitorOrder
