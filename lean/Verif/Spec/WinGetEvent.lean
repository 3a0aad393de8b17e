import Verif.Model.WinGetEvent

/-! Specification vocabulary for `get_event`: functions of the trace. -/

namespace Verif.WinGetEvent

/-- How often a handle was handed out by the OS. -/
def creations (h : Nat) (tr : List Ev) : Nat := tr.countP fun e => match e with | .created _ h' => h' = h | _ => false
/-- How often a handle was closed. -/
def closings (h : Nat) (tr : List Ev) : Nat := tr.countP fun e => match e with | .closed _ h' => h' = h | _ => false

end Verif.WinGetEvent
