import Verif.Model.TimerInit
import Verif.Model.TssOnce
import Verif.Model.WinGetEvent

/-!
# Steps that the scheduler owes a thread (C116)

Everything but the call of the function: the code, and the answers of the system to its calls, good or bad.
-/

namespace Verif.TimerInit

/-- The next action of `get_waitable_timer`. -/
def Next (_ : St) : Act → Prop
  | .call _ => False
  | _ => True

end Verif.TimerInit

namespace Verif.TssOnce

/-- The next action of `init_tss_once`. -/
def Next (_ : St) : Act → Prop
  | .call => False
  | _ => True

end Verif.TssOnce

namespace Verif.WinGetEvent

/-- The next action of `get_event`. -/
def Next (_ : St) : Act → Prop
  | .call => False
  | _ => True

end Verif.WinGetEvent
